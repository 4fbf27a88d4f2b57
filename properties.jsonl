{"id": "C01", "title": "Every task runs exactly once", "statement": "When a set of tasks without circular dependencies is run by the task scheduler with any number of worker threads, each registered task is executed exactly once: never twice, and, once the workers have seen the number of waiting tasks drop to zero, never zero times.", "quantifier": "all task sets (any size, any acyclic dependency graph, any resource links), all numbers of threads and queues, all interleavings of the atomic steps of the workers", "why_tests_cant": "A test run exercises a handful of interleavings out of an unbounded number; a violated order or a double execution only shows up in rare schedules.", "anchors": ["quicksched/qsched.c:qsched_gettask,qsched_done,qsched_enqueue,qsched_run_openmp", "quicksched/queue.c:queue_get,queue_put", "src/QuickSchedWrapper.hpp:QuickSched::execute_tasks"]}
{"id": "C02", "title": "Dependencies are respected", "statement": "If link_tasks(a, b) was called, then in every execution task b only starts after task a has completely finished.", "quantifier": "all task graphs, thread counts and interleavings", "why_tests_cant": "A test run exercises a handful of interleavings out of an unbounded number; a violated order or a double execution only shows up in rare schedules.", "anchors": ["quicksched/qsched.c:qsched_done,qsched_addunlock,qsched_prepare", "src/QuickSchedWrapper.hpp:QuickSched::link_tasks"]}
{"id": "C03", "title": "Write-linked resources are exclusive, including parents and children", "statement": "At no moment do two running tasks both have write access to the same resource, or one to a resource and the other to one of its (direct or indirect) children.", "quantifier": "all resource hierarchies, all tasks and threads, all interleavings of the individual lock/hold operations", "why_tests_cant": "A test run exercises a handful of interleavings out of an unbounded number; a violated order or a double execution only shows up in rare schedules.", "anchors": ["quicksched/qsched.c:qsched_lockres,qsched_unlockres,qsched_locktask", "src/QuickSchedWrapper.hpp:QuickSched::link_task_and_resource,register_resource"]}
{"id": "C04", "title": "Failed lock attempts leave no residue; all resources are free at the end", "statement": "A lock attempt that fails restores every lock and hold counter it touched, the hold counter of a resource always equals the number of lock operations currently holding one of its descendants, and when no worker is inside a lock/unlock or task, all resources are unlocked with hold counter zero.", "quantifier": "all resource hierarchies, all interleavings", "why_tests_cant": "A test run exercises a handful of interleavings out of an unbounded number; a violated order or a double execution only shows up in rare schedules.", "anchors": ["quicksched/qsched.c:qsched_lockres,qsched_unlockres,qsched_locktask"]}
{"id": "C05", "title": "The scheduler cannot deadlock", "statement": "As long as tasks remain and no task is in progress, some queued task can be locked by the next scan, and from every reachable state all tasks can still be completed, provided no task write-links the same resource twice or a resource together with one of its own ancestors.", "quantifier": "all acyclic task graphs, resource hierarchies, thread counts, and all reachable states", "why_tests_cant": "Deadlock freedom is a statement about every reachable state; a test only visits some of them.", "anchors": ["quicksched/qsched.c:qsched_gettask,qsched_lockres,qsched_prepare", "quicksched/queue.c:queue_get"]}
{"id": "C06", "title": "Circular dependencies are detected, and only those", "statement": "Preparing a run reports 'Circular dependencies detected.' if and only if the dependency graph has a cycle; otherwise every task is placed exactly once in the topological order.", "quantifier": "all finite dependency graphs (multi-edges and self loops included)", "why_tests_cant": "The statement is about every size/input; tests check a few literal inputs.", "anchors": ["quicksched/qsched.c:qsched_prepare"]}
{"id": "C07", "title": "Task priorities are critical-path lengths", "statement": "After preparation the weight of each task equals its own cost plus the largest total cost along any chain of tasks that it unlocks (costs are non-negative).", "quantifier": "all acyclic graphs and costs", "why_tests_cant": "The statement is about every size/input; tests check a few literal inputs.", "anchors": ["quicksched/qsched.c:qsched_prepare"]}
{"id": "C08", "title": "Links end up with the right task", "statement": "However link calls for different tasks were interleaved, after preparation each task sees exactly the resources/successors it was linked with, in the order in which they were linked.", "quantifier": "all sequences of link calls", "why_tests_cant": "The statement is about every size/input; tests check a few literal inputs.", "anchors": ["quicksched/qsched.c:qsched_sort,qsched_prepare,qsched_addlock,qsched_adduse,qsched_addunlock"]}
{"id": "C09", "title": "Queues lose and duplicate nothing", "statement": "Putting a task in a queue adds exactly that task; taking a task out removes exactly the returned task; an unsuccessful take changes nothing. The queue stays a heap ordered by priority.", "quantifier": "all queue contents, weights and lock outcomes", "why_tests_cant": "The statement is about every size/input; tests check a few literal inputs.", "anchors": ["quicksched/queue.c:queue_put,queue_get"]}
{"id": "C10", "title": "Queues hand out lockable tasks, best first", "statement": "A take from a queue returns a task whose locks were acquired; if the highest-priority task of the queue can be locked, that one is returned; the take only reports 'none' if no task in the queue could be locked.", "quantifier": "all queue contents, weights, lock outcomes", "why_tests_cant": "The statement is about every size/input; tests check a few literal inputs.", "anchors": ["quicksched/queue.c:queue_get"]}
{"id": "C11", "title": "Ready tasks go to the queue that owns most of their resources", "statement": "A ready task is put in a queue with the highest number of linked resources owned by that queue and, among those, with the fewest queued tasks; in particular always in an existing queue.", "quantifier": "all owner assignments, queue counts and links", "why_tests_cant": "The statement is about every size/input; tests check a few literal inputs.", "anchors": ["quicksched/qsched.c:qsched_enqueue"]}
{"id": "C12", "title": "Registering more than was reserved loses nothing", "statement": "Adding tasks, resources, links or dependencies beyond the reserved/initial capacity preserves all entries that were added before; reserving memory never changes existing entries.", "quantifier": "all sequences of add/reserve calls", "why_tests_cant": "The statement is about every size/input; tests check a few literal inputs.", "anchors": ["quicksched/qsched.c:qsched_ensure,qsched_addtask,qsched_addres,qsched_addlock,qsched_adduse,qsched_addunlock"]}
{"id": "C13", "title": "Task payloads are stored intact", "statement": "The payload bytes passed when registering a task are the bytes handed to the task function, and payloads of different tasks never overlap. (Violated when a single payload does not fit in the doubled data buffer.)", "quantifier": "all sequences of task registrations with arbitrary payload sizes", "why_tests_cant": "The statement is about every size/input; tests check a few literal inputs.", "anchors": ["quicksched/qsched.c:qsched_addtask,qsched_getdata"]}
{"id": "C14", "title": "A prepared schedule can be run again", "statement": "After a completed run, preparing again restores the same dependency counters and the same set of initially available tasks, so that a second run executes every task again.", "quantifier": "all acyclic graphs", "why_tests_cant": "The statement is about every size/input; tests check a few literal inputs.", "anchors": ["quicksched/qsched.c:qsched_prepare,qsched_done"]}
{"id": "C15", "title": "Runs with virtual or skipped tasks terminate", "statement": "A run whose task set contains virtual tasks (no action) or skipped tasks ends once all ordinary tasks have run. (Violated: a virtual task without predecessors, or any skipped task, leaves the waiting counter above zero forever.)", "quantifier": "all task sets with flags", "why_tests_cant": "A test run exercises a handful of interleavings out of an unbounded number; a violated order or a double execution only shows up in rare schedules.", "anchors": ["quicksched/qsched.c:qsched_prepare,qsched_enqueue,qsched_done,qsched_gettask"]}
{"id": "C16", "title": "Task types are numbered consistently", "statement": "Two registered tasks get the same type number if and only if they have the same C++ type, and the printed type dictionary maps each number to that type.", "quantifier": "all registration sequences", "why_tests_cant": "The statement is about every size/input; tests check a few literal inputs.", "anchors": ["src/QuickSchedWrapper.hpp:QuickSched::register_task,print_type_dict"]}
{"id": "C17", "title": "Progress counting is well defined", "statement": "Counting finished tasks never divides by zero and reports progress for every total number of tasks. (Violated for fewer than 50 tasks, where the reporting interval rounds to zero.)", "quantifier": "all numbers of tasks", "why_tests_cant": "The statement is about every size/input; tests check a few literal inputs.", "anchors": ["src/QuickSchedWrapper.hpp:TaskCounter"]}
{"id": "C18", "title": "Concurrently running tasks get different thread ids", "statement": "As long as no more threads are used than the scheduler was constructed with, two tasks that run at the same time receive different thread ids, so per-thread scratch space is never shared; with more threads this fails.", "quantifier": "all thread counts, schedules", "why_tests_cant": "A test run exercises a handful of interleavings out of an unbounded number; a violated order or a double execution only shows up in rare schedules.", "anchors": ["quicksched/qsched.c:qsched_run_openmp,qsched_gettask", "src/QuickSchedWrapper.hpp:execute_tasks", "src/TMatrixResource.hpp:TMatrixAuxiliarySpaceManager"]}
{"id": "C19", "title": "The generated computation is free of circular dependencies", "statement": "For every combination of sizes, wavelengths, compositions, shapes, order range, requested quantities and memory limit, the task graph generated for a table calculation has no circular dependencies.", "quantifier": "all input vectors, order ranges, memory limits, output flags", "why_tests_cant": "The statement is about every size/input; tests check a few literal inputs.", "anchors": ["src/TaskManager.hpp:generate_tasks"]}
{"id": "C20", "title": "Results can be found back through the result key", "statement": "For valid composition, size, wavelength and result-type indices the result index is in range, distinct index tuples give distinct results, and the result stored there was created for exactly these parameter values and this quantity (extinction, absorption, scattering in that order, as far as requested).", "quantifier": "all numbers of compositions, sizes, wavelengths, requested quantities", "why_tests_cant": "The statement is about every size/input; tests check a few literal inputs.", "anchors": ["src/ResultKey.hpp:get_result_index", "src/TaskManager.hpp:generate_tasks", "src/CTMModule.cpp:get_table"]}
{"id": "C21", "title": "Table entries correspond to the inputs at the same position", "statement": "Entry [i][j][k] of the table returned by get_table is the result for the i-th composition, the j-th size and the k-th wavelength passed by the caller. (Violated for unsorted sizes or wavelengths: the inputs are sorted internally.)", "quantifier": "all input arrays", "why_tests_cant": "The statement is about every size/input; tests check a few literal inputs.", "anchors": ["src/CTMModule.cpp:get_table", "src/TaskManager.hpp:generate_tasks"]}
{"id": "C22", "title": "No quantity is read before it has been computed", "statement": "In every execution order allowed by the generated dependencies, each task that reads a computed resource runs after the task that computes it.", "quantifier": "all parameter combinations and all execution orders", "why_tests_cant": "A test run exercises a handful of interleavings out of an unbounded number; a violated order or a double execution only shows up in rare schedules.", "anchors": ["src/TaskManager.hpp:generate_tasks", "src/QuickSchedWrapper.hpp:Computable"]}
{"id": "C23", "title": "Reused T-matrix memory is never overwritten early", "statement": "When the memory limit forces T-matrix slots to be reused, the tasks of the next calculation in a slot only start after all tasks that use the previous content of that slot have finished and the slot was reset.", "quantifier": "all memory limits, parameter combinations, execution orders", "why_tests_cant": "A test run exercises a handful of interleavings out of an unbounded number; a violated order or a double execution only shows up in rare schedules.", "anchors": ["src/TaskManager.hpp:generate_tasks", "src/TMatrixResource.hpp:ResetTMatrixResourceTask"]}
{"id": "C24", "title": "Conflicting accesses are never concurrent", "statement": "If one task of a table calculation writes a resource and another reads or writes it, the two are ordered by dependencies or excluded by a common lock.", "quantifier": "all parameter combinations, all pairs of tasks", "why_tests_cant": "A test run exercises a handful of interleavings out of an unbounded number; a violated order or a double execution only shows up in rare schedules.", "anchors": ["src/TaskManager.hpp:generate_tasks", "src/AlignmentAverageTask.hpp:link_resources", "src/TMatrixResource.hpp"]}
{"id": "C25", "title": "Dry-run accounting matches the tasks that are created", "statement": "The numbers of tasks, results and dependencies reserved by the dry run cover those registered afterwards, for all inputs; resources and read-only links are under-reserved.", "quantifier": "all parameter combinations", "why_tests_cant": "The statement is about every size/input; tests check a few literal inputs.", "anchors": ["src/TaskManager.hpp:MemoryManager,generate_tasks"]}
{"id": "C26", "title": "The memory limit is respected by the accounting", "statement": "The number of extra T-matrix slots is the largest that fits in the remaining memory and never exceeds what can be used; the accounted memory after allocating the slots stays within the limit.", "quantifier": "all memory limits and object sizes", "why_tests_cant": "The statement is about every size/input; tests check a few literal inputs.", "anchors": ["src/TaskManager.hpp:MemoryManager,generate_tasks"]}
{"id": "C27", "title": "Matrix elements are independent and in bounds", "statement": "Distinct (row, column) pairs of a Matrix refer to distinct storage positions inside the allocation; writing one element does not change any other; a row pointer gives access to exactly that row.", "quantifier": "all matrix shapes and indices", "why_tests_cant": "The statement is about every size/input; tests check a few literal inputs.", "anchors": ["src/Matrix.hpp:operator(),get_row"]}
{"id": "C28", "title": "Matrix inversion is correct", "statement": "plu_inverse replaces an invertible matrix by its inverse (exact arithmetic), whatever pivots are encountered.", "quantifier": "all sizes and all invertible matrices over a field", "why_tests_cant": "The statement is about every size/input; tests check a few literal inputs.", "anchors": ["src/Matrix.hpp:plu_inverse"]}
{"id": "C29", "title": "T-matrix elements are stored independently and in bounds", "statement": "Distinct valid (m, i, n, j, n') element indices of a T-matrix map to distinct storage positions within the allocation, for every expansion order up to the maximum; set_element followed by the getter returns the value.", "quantifier": "all orders and index tuples", "why_tests_cant": "The statement is about every size/input; tests check a few literal inputs.", "anchors": ["src/TMatrixResource.hpp:TMatrixResource", "src/TMatrix.hpp:set_element,operator()"]}
{"id": "C30", "title": "Wigner function table storage is a bijection", "statement": "The triangular index used for the special Wigner D functions maps the pairs (n, m), 1<=n<=nmax, 0<=m<=n one-to-one onto the allocated range.", "quantifier": "all nmax", "why_tests_cant": "The statement is about every size/input; tests check a few literal inputs.", "anchors": ["src/ExtinctionCoefficientTask.hpp", "src/AbsorptionCoefficientTask.hpp", "src/ScatteringMatrixTask.hpp"]}
{"id": "C31", "title": "Tabulated Wigner functions at mirrored angles", "statement": "The Wigner functions stored for the quadrature point -x equal the recursion evaluated at -x. (Violated for odd m: the stored value has the opposite sign; products of two functions with the same m, which is all the T-matrix integrals use, are unaffected.)", "quantifier": "all orders n, m and angles", "why_tests_cant": "The statement is about every size/input; tests check a few literal inputs.", "anchors": ["src/WignerDResources.hpp:execute", "src/SpecialFunctions.hpp:wigner_dn_0m"]}
{"id": "C32", "title": "Gauss-Legendre rules are symmetric and rescale correctly", "statement": "The quadrature points come in pairs +-x with equal weights (ascending indices mirrored), and the rule on [a,b] is the affine image of the one on [-1,1], so the weights sum to b-a when they sum to 2 on [-1,1].", "quantifier": "all even and odd orders, all intervals", "why_tests_cant": "The statement is about every size/input; tests check a few literal inputs.", "anchors": ["src/SpecialFunctions.hpp:get_gauss_legendre_points_and_weights,get_gauss_legendre_points_and_weights_ab"]}
{"id": "C33", "title": "Spheroid radius table is symmetric and solves the surface equation", "statement": "For every even number of quadrature points and axis ratio d, r^2 at mirrored points is equal, the logarithmic derivative is opposite, and the tabulated radius lies on the spheroid with axis ratio d that has the volume of the unit sphere.", "quantifier": "all point sets and axis ratios > 0", "why_tests_cant": "The statement is about every size/input; tests check a few literal inputs.", "anchors": ["src/SpecialFunctions.hpp:get_r_dr_spheroid"]}
{"id": "C34", "title": "Shape averages are weighted means", "statement": "The shape averaged coefficients equal sum(w_i x_i)/sum(w_i), lie between the smallest and largest input for non-negative weights, and equal the input for a single shape.", "quantifier": "all numbers of shapes, weights, values", "why_tests_cant": "The statement is about every size/input; tests check a few literal inputs.", "anchors": ["src/ShapeAveragingTask.hpp"]}
{"id": "C35", "title": "Table interpolation is exact at nodes and bounded between them", "statement": "A row looked up in a strictly monotone table (ascending or descending) lies between the two bracketing rows, equals the tabulated row at tabulated values, and lookups outside the range are rejected when assertions are active.", "quantifier": "all strictly monotone tables with at least two rows and all lookup values in range", "why_tests_cant": "The statement is about every size/input; tests check a few literal inputs.", "anchors": ["src/Table.hpp:LinearInterpolatedTable::get_row"]}
{"id": "C36", "title": "Bisection lookup brackets the value", "statement": "locate returns an index in [0, length-2] such that the value lies between that element and the next whenever it lies in the range of the array.", "quantifier": "all sorted arrays of at least two elements and all values", "why_tests_cant": "The statement is about every size/input; tests check a few literal inputs.", "anchors": ["src/Utilities.hpp:locate"]}
{"id": "C37", "title": "Convergence bookkeeping", "statement": "Once a T-matrix has been flagged converged, later order iterations change neither the T-matrix nor its order; the flag is only set if both relative differences are within tolerance; a first iteration never converges.", "quantifier": "all sequences of scattering/extinction coefficients and tolerances", "why_tests_cant": "The statement is about every size/input; tests check a few literal inputs.", "anchors": ["src/TMatrixResource.hpp:TMatrixM0Task", "src/ConvergedSizeResources.hpp"]}
{"id": "C38", "title": "The standalone T-matrix loop reports failure only when it did not converge", "statement": "calculate_TMatrix aborts with a convergence error only if no order up to the maximum met the tolerance. (Violated: convergence at the last allowed order is reported as failure.)", "quantifier": "all sequences of differences, maximum orders", "why_tests_cant": "The statement is about every size/input; tests check a few literal inputs.", "anchors": ["src/TMatrixCalculator.hpp:calculate_TMatrix"]}
{"id": "C39", "title": "Orientation distributions are proper", "statement": "The Mishchenko distribution is non-negative exactly for the accepted parameter range and normalised; Davis-Greenstein coefficients are p_n=1 (oblate) or the Legendre values at zero (prolate); coefficient 0 is always 1; the size based alignment picks the documented distribution.", "quantifier": "all parameters, angles and orders", "why_tests_cant": "The statement is about every size/input; tests check a few literal inputs.", "anchors": ["src/MishchenkoOrientationDistribution.hpp", "src/DavisGreensteinOrientationDistribution.hpp", "src/SizeBasedAlignmentDistribution.hpp"]}
{"id": "C40", "title": "Refractive index squares to the dielectric function", "statement": "The refractive index computed for a dielectric function with non-negative imaginary part has non-negative real and imaginary parts and squares to it; for negative imaginary part it squares to the conjugate.", "quantifier": "all complex dielectric functions", "why_tests_cant": "The statement is about every size/input; tests check a few literal inputs.", "anchors": ["src/DraineDustProperties.hpp:eps_to_mr"]}
{"id": "C41", "title": "Unit algebra is consistent", "statement": "Multiplying, dividing and taking powers of units act on value and dimensions consistently: (u*v)/v=u, powers add, converting to a unit and back is the identity. (Power zero is violated: the value is kept while the dimensions vanish.)", "quantifier": "all units with non-zero value and all exponents", "why_tests_cant": "The statement is about every size/input; tests check a few literal inputs.", "anchors": ["src/Unit.hpp", "src/UnitConverter.hpp:to_SI,to_unit,try_conversion"]}
{"id": "C42", "title": "Unit strings are parsed as products of powers", "statement": "Parsing a string of known unit names with optional ^powers separated by spaces gives the product of the corresponding unit powers, in any order of the factors.", "quantifier": "all lists of known units and non-zero integer powers", "why_tests_cant": "The statement is about every size/input; tests check a few literal inputs.", "anchors": ["src/UnitConverter.hpp:get_unit,get_single_unit"]}
{"id": "C43", "title": "Parameter files round trip", "statement": "Printing the contents of a parameter dictionary and reading the result back gives the same dictionary.", "quantifier": "all dictionaries with well formed keys and values", "why_tests_cant": "The statement is about every size/input; tests check a few literal inputs.", "anchors": ["src/YAMLDictionary.hpp:print_contents,YAMLDictionary"]}
{"id": "C44", "title": "Reading a parameter file is well defined", "statement": "Reading any text either produces a dictionary or reports a formatting error. (Violated: a line whose indentation drops below the first indentation level without being zero makes the parser inspect an empty level list.)", "quantifier": "all texts", "why_tests_cant": "The statement is about every size/input; tests check a few literal inputs.", "anchors": ["src/YAMLDictionary.hpp:YAMLDictionary(std::istream&)"]}
{"id": "C45", "title": "Parameter lookup with default", "statement": "Querying a key that is present returns its value; querying an absent key with a default returns the default, now and on every later query with a default, and never changes other keys; the used value is recorded.", "quantifier": "all dictionaries and query sequences", "why_tests_cant": "The statement is about every size/input; tests check a few literal inputs.", "anchors": ["src/YAMLDictionary.hpp:get_value,add_value,has_value"]}
{"id": "C46", "title": "Command line parsing", "statement": "A successful parse assigns to every registered option the last value given for it on the command line or its default, all required options were present, and unknown options, orphan arguments and missing required options end the program. Boolean options silently swallow a following argument.", "quantifier": "all option sets and argument vectors", "why_tests_cant": "The statement is about every size/input; tests check a few literal inputs.", "anchors": ["src/CommandLineParser.cpp:parse_arguments,add_option", "src/CommandLineOption.cpp:matches,parse_argument"]}
{"id": "C47", "title": "Integer conversion", "statement": "Converting a decimal, exponent or hexadecimal string gives the integer it denotes (within the type's range); the empty string is rejected. Strings without digits silently convert to 0.", "quantifier": "all strings", "why_tests_cant": "The statement is about every size/input; tests check a few literal inputs.", "anchors": ["src/Utilities.hpp:string_to_integer"]}
{"id": "C48", "title": "Boolean conversion", "statement": "Strings convert to true exactly for true/yes/on/y and to false exactly for false/no/off/n (any case, surrounding blanks ignored); everything else is rejected.", "quantifier": "all non-blank strings", "why_tests_cant": "The statement is about every size/input; tests check a few literal inputs.", "anchors": ["src/Utilities.hpp:convert<bool>"]}
{"id": "C49", "title": "Human readable times and sizes", "statement": "The y/d/h/m/s decomposition of a number of seconds adds up to that number with every part in range; the byte formatter divides by 1024 exactly as often as its unit says and keeps the displayed value below 1024 for all supported sizes. (Found to fail: values that round up are displayed as 1024 of the smaller unit.)", "quantifier": "all unsigned numbers of seconds / bytes", "why_tests_cant": "The statement is about every size/input; tests check a few literal inputs.", "anchors": ["src/Utilities.hpp:human_readable_time,human_readable_bytes,byte_unit"]}
{"id": "C50", "title": "Number utilities", "statement": "decompose returns prime factors in ascending order whose product is the number; as_binary_sequence contains exactly the binary digits; argsort returns a permutation that sorts the values.", "quantifier": "all numbers / vectors", "why_tests_cant": "The statement is about every size/input; tests check a few literal inputs.", "anchors": ["src/Utilities.hpp:decompose,as_binary_sequence,argsort"]}
{"id": "C51", "title": "MD5 checksums", "statement": "The checksum of a byte stream equals the RFC 1321 MD5 digest, in particular with the correct padding for every stream length.", "quantifier": "all byte strings (shorter than 2^61 bytes)", "why_tests_cant": "The statement is about every size/input; tests check a few literal inputs.", "anchors": ["src/MD5Sum.hpp:get_checksum,md5,tohex"]}
{"id": "C52", "title": "Refraction conserves energy", "statement": "For every angle of incidence and pair of refractive indices the reflected and transmitted fractions lie between 0 and 1 and add up to 1; without total reflection Snell's law holds.", "quantifier": "all angles in [0, pi/2] and positive indices", "why_tests_cant": "The statement is about every size/input; tests check a few literal inputs.", "anchors": ["src/RefractionEvent.hpp"]}
{"id": "C53", "title": "Scattering matrices are physical", "statement": "The 4x4 scattering matrix derived from any complex 2x2 amplitude matrix satisfies Z00>=0 and maps physical Stokes vectors to physical Stokes vectors; the extinction matrix has the documented symmetries.", "quantifier": "all complex amplitude matrices", "why_tests_cant": "The statement is about every size/input; tests check a few literal inputs.", "anchors": ["src/TMatrix.hpp:get_scattering_matrix,get_extinction_matrix", "src/ScatteringMatrixTask.hpp:execute"]}
{"id": "C54", "title": "Matrix dumps can be read back", "statement": "The binary dump of a matrix contains its shape and element size followed by all elements in row order; reading it back gives the same matrix.", "quantifier": "all matrices", "why_tests_cant": "The statement is about every size/input; tests check a few literal inputs.", "anchors": ["src/Matrix.hpp:binary_dump"]}
{"id": "C55", "title": "Scattering table layout", "statement": "Entry [theta][phi] of the returned scattering table is the matrix that was computed for that pair of output angles; the flattened index is in range and one-to-one.", "quantifier": "all numbers of angles", "why_tests_cant": "The statement is about every size/input; tests check a few literal inputs.", "anchors": ["src/ScatteringMatrixTask.hpp", "src/CTMModule.cpp:get_table"]}
{"id": "C56", "title": "Phase factors of the expansion coefficients", "statement": "The tabulated coefficients for orders (n, n') equal i^(n'-n-1) times the square-root prefactor, whatever the parity of the orders.", "quantifier": "all orders", "why_tests_cant": "The statement is about every size/input; tests check a few literal inputs.", "anchors": ["src/NBasedResources.hpp:execute"]}
{"id": "C57", "title": "Averaging over orientations", "statement": "With alignment disabled the ensemble T-matrix equals the single-particle T-matrix element by element. With alignment every element is the sum over all orders N and projections of the orientation average (Mishchenko 1991, eq. 3.27): perfect alignment leaves the T-matrix as it is, random orientations give the mean over the projections.", "quantifier": "all orders, axisymmetric T-matrices, orientation distributions and previous contents of output and work space", "why_tests_cant": "The statement is about every size/input; tests check a few literal inputs.", "anchors": ["src/AlignmentAverageTask.hpp:execute"]}
{"id": "C58", "title": "File name composition and suffix tests", "statement": "A composed snapshot file name contains the folder, the prefix and the counter padded with zeros to at least the requested width; different counters give different names; the suffix test accepts exactly the strings that end in the suffix; a string of the form [a,b,c] is split into exactly its three parts.", "quantifier": "all strings, counters and widths", "why_tests_cant": "The statement is about every size/input; tests check a few literal inputs.", "anchors": ["src/Utilities.hpp:compose_filename,string_ends_with,split_string"]}
{"id": "C59", "title": "Shared objects are found again by their index", "statement": "The objects that the task generation fetches back from its object lists by offset and index are the quadrature points, Wigner functions and geometry of that order and shape and the work space with that number, so every cast is valid.", "quantifier": "all parameter combinations", "why_tests_cant": "The statement is about every size/input; tests check a few literal inputs.", "anchors": ["src/TaskManager.hpp:generate_tasks"]}
{"id": "C60", "title": "The T-matrix solves the extended boundary condition", "statement": "The T-matrix block computed for every m is -RgQ Q^-1, where Q and RgQ are the surface integrals evaluated with the full Gauss-Legendre rule; summing half of the points with a parity filter gives the same matrices, and nothing left over from an earlier order or wavelength enters.", "quantifier": "all orders, quadrature sizes, particle shapes and histories of the work space", "why_tests_cant": "The statement is about every size/input; tests check a few literal inputs.", "anchors": ["src/TMatrixResource.hpp:TMatrixM0Task::execute,TMatrixMAllTask::execute"]}
{"id": "C61", "title": "Orientation averaging stays inside its work space", "statement": "For every order up to the configured maximum, computing the Clebsch-Gordan coefficients for the orientation average accesses only elements of the work space reserved for it.", "quantifier": "all orders up to the maximum", "why_tests_cant": "The statement is about every size/input; tests check a few literal inputs.", "anchors": ["src/AlignmentAverageTask.hpp:execute", "src/TMatrixResource.hpp:TMatrixAuxiliarySpace", "src/SpecialFunctions.hpp:get_clebsch_gordan_coefficients"]}
{"id": "C62", "title": "Spherical Bessel arrays", "statement": "For every non-zero real or complex argument and every maximum order, the arrays contain the spherical Bessel functions of orders 1 to nmax and [z f(z)]'/z, and only the first nmax elements are written.", "quantifier": "all arguments, orders and previous array contents", "why_tests_cant": "The statement is about every size/input; tests check a few literal inputs.", "anchors": ["src/SpecialFunctions.hpp:spherical_y_ydy_array,spherical_j_jdj_array"]}
{"id": "C63", "title": "Wigner arrays", "statement": "For every angle, every m up to nmax, the arrays contain the Wigner functions d^n_0m for n = 1..nmax and their derivatives (or the functions divided by the sine, with the right limits at the poles), and only the first nmax elements are written.", "quantifier": "all angles, orders and previous array contents", "why_tests_cant": "The statement is about every size/input; tests check a few literal inputs.", "anchors": ["src/SpecialFunctions.hpp:wigner_dn_0m,wigner_dn_0m_sinx"]}
{"id": "C64", "title": "A change within the tolerance ends the T-matrix calculation", "statement": "The first order (after the first) for which the relative changes of both cross sections are within the tolerance is the last one that is carried out, and the calculation is then flagged as converged.", "quantifier": "all sequences of orders, tolerances and particles", "why_tests_cant": "The statement is about every size/input; tests check a few literal inputs.", "anchors": ["src/TMatrixResource.hpp:TMatrixM0Task::execute"]}
{"id": "C65", "title": "Clebsch-Gordan coefficients", "statement": "For every pair of orders n1, n2 and every N allowed by the triangle rule, get_clebsch_gordan_coefficient(s) returns the Clebsch-Gordan coefficients in the Condon-Shortley convention (orthonormal, complete, positive highest coefficient, zero where a selection rule is violated), independent of what the workspace contained, and without touching more than (N+1)(2 n1+1) elements of it.", "quantifier": "all n1, n2, N in the triangle, all projections, all workspace contents", "why_tests_cant": "the coefficients come out of a double recursion whose length grows with the orders; a test compares a few tabulated values", "anchors": ["src/SpecialFunctions.hpp: get_clebsch_gordan_coefficient, get_clebsch_gordan_coefficients"]}
{"id": "C66", "title": "Amplitude matrix", "statement": "For every T-matrix of an axisymmetric particle, every pair of incoming and outgoing directions of the grids and every wavenumber, the amplitude matrix used by the extinction, absorption and scattering tasks is the sum over all orders and over positive and negative projections of the T-matrix elements times the angular functions of the two directions.", "quantifier": "all T-matrices of any order, all directions, wavenumbers and previous table contents", "why_tests_cant": "The statement is about every size/input; tests check a few literal inputs.", "anchors": ["src/ExtinctionCoefficientTask.hpp:get_forward_scattering_matrix", "src/AbsorptionCoefficientTask.hpp:get_forward_scattering_matrix", "src/ScatteringMatrixTask.hpp:get_forward_scattering_matrix"]}
{"id": "C67", "title": "Extinction and absorption coefficients", "statement": "For every angle of the grid the extinction task stores the coefficients of the optical theorem divided by the geometric cross section of the equal volume sphere; the absorption task stores the same value minus (if scattering is accounted for) the scattered intensity summed with the quadrature weights over the incoming directions; nothing else is written.", "quantifier": "all T-matrices, grids, quadrature sizes, wavenumbers and radii", "why_tests_cant": "The statement is about every size/input; tests check a few literal inputs.", "anchors": ["src/ExtinctionCoefficientTask.hpp:ExtinctionCoefficientTask::execute", "src/AbsorptionCoefficientTask.hpp:AbsorptionCoefficientTask::execute"]}
{"id": "C68", "title": "Shape distribution in terms of the axis ratio", "statement": "The built-in shape distribution is the CDE2 distribution of depolarisation factors expressed in the axis ratio: the Jacobian is the derivative of the depolarisation factor at every axis ratio (outside the strip around 1 in which a series is used), the density is non-negative, zero outside its limits, and integrates over an interval of axis ratios to the CDE2 probability of the corresponding depolarisation factors.", "quantifier": "all axis ratios and all limits", "why_tests_cant": "The statement is about every size/input; tests check a few literal inputs.", "anchors": ["src/DraineHensleyShapeDistribution.hpp:get_shape_factor,get_jacobian,cde2,operator()"]}
{"id": "C69", "title": "Tabulated refractive indices", "statement": "At a tabulated wavelength, for the temperature and the grain size of the table (20 K, 0.1 micron), the refractive index of both carbon types squares to the tabulated dielectric function; for other temperatures and sizes the dielectric function differs exactly by the difference of the free electron terms; for silicate the tabulated refractive index is returned; between tabulated wavelengths the dielectric function without the free electron term is interpolated linearly.", "quantifier": "all tables, wavelengths, temperatures and grain sizes", "why_tests_cant": "The statement is about every size/input; tests check a few literal inputs.", "anchors": ["src/DraineDustProperties.hpp:DraineDustProperties,get_refractive_index,get_C_epsilon_free"]}
{"id": "C70", "title": "Adaptive quadrature", "statement": "If gauss_legendre_quadrature returns without a warning, the returned value is that of the first rule (from the starting order on) that agrees with the rule of the previous order within one of the two tolerances; otherwise it warns and returns the value for the highest order.", "quantifier": "all integrands, intervals, orders and tolerances", "why_tests_cant": "The statement is about every size/input; tests check a few literal inputs.", "anchors": ["src/SpecialFunctions.hpp:gauss_legendre_quadrature"]}
{"id": "C71", "title": "Nested parameter files", "statement": "A parameter file whose lines form nested blocks, with any indentation widths, blanks, tabs and comments, is read: every key consists of the names of its groups and its own name joined by colons, and has the last value given for it. Comments and empty lines have no influence on any text; lines without a colon and indented lines outside a group are errors.", "quantifier": "all texts that form nested blocks", "why_tests_cant": "The statement is about every size/input; tests check a few literal inputs.", "anchors": ["src/YAMLDictionary.hpp:YAMLDictionary(std::istream&)"]}
{"id": "C72", "title": "Stand-alone TMatrix class: transition matrix", "statement": "For every wavelength, refractive index, size and axis ratio, maximum order and quadrature size: after construction and one call of compute_additional_elements, operator() returns, for every degree for which the Q matrix is regular, the elements of the transition matrix T = -RgQ Q^-1 of the spheroid with the requested axis ratio and the volume of the sphere with the requested radius, where Q and RgQ are surface integrals of vector spherical wave functions evaluated with the quadrature rule.", "quantifier": "all sizes, axis ratios, wavelengths, refractive indices, maximum orders, quadrature sizes and degrees", "why_tests_cant": "The statement is about every size/input; tests check a few literal inputs.", "anchors": ["src/TMatrix.hpp:TMatrix,compute_additional_elements,operator()"]}
{"id": "C73", "title": "Stand-alone TMatrix class: repeated computation", "statement": "compute_additional_elements can be called any number of times on the same object without changing the elements of the matrix after the first call.", "quantifier": "all objects and all numbers of calls", "why_tests_cant": "The statement is about every size/input; tests check a few literal inputs.", "anchors": ["src/TMatrix.hpp:compute_additional_elements"]}
{"id": "C74", "title": "Symmetries of the T-matrix", "statement": "The computed T-matrix has the symmetries of an axisymmetric particle with a plane of symmetry: elements with an odd sum of orders and kinds vanish, the mixed blocks vanish for degree 0, and the stored elements (degrees m >= 0) determine those for negative degrees, T^{ij}(-m) = (-1)^{i+j} T^{ij}(m), which are the transition matrix of the wave functions with negative degrees.", "quantifier": "all spheroids, wavelengths, refractive indices, maximum orders, quadrature sizes and degrees of both signs", "why_tests_cant": "The statement is about every size/input; tests check a few literal inputs.", "anchors": ["src/TMatrix.hpp:TMatrix,compute_additional_elements", "src/TMatrixResource.hpp:TMatrixM0Task,TMatrixMAllTask", "src/TMatrixAlignmentTask.hpp"]}
{"id": "C75", "title": "Amplitude matrix for any orientation", "statement": "get_forward_scattering_matrix returns, for every pair of directions and every orientation of the particle, the matrix that takes the incoming field to the scattered field: the result of expressing the incoming field in the frame of the particle, applying the amplitude matrix of the theory for the angles in that frame, and expressing the result in the laboratory frame again, also when a direction is along the axis of the particle. Turning particle, source and observer together around the z axis does not change the result.", "quantifier": "all T-matrices, orientations and directions", "why_tests_cant": "The statement is about every size/input; tests check a few literal inputs.", "anchors": ["src/TMatrix.hpp:get_forward_scattering_matrix"]}
{"id": "C76", "title": "Scattering and extinction matrix of the TMatrix class", "statement": "get_scattering_matrix returns the (unique) matrix that takes the Stokes vector of the incoming wave to that of the scattered wave; get_extinction_matrix returns the matrix that describes the attenuation of the Stokes vector of a wave whose amplitudes are attenuated according to the forward amplitude matrix; the reduced extinction matrix consists of its elements 11, 12 and 34 and nothing else is written.", "quantifier": "all T-matrices, orientations, directions and polarisations", "why_tests_cant": "The statement is about every size/input; tests check a few literal inputs.", "anchors": ["src/TMatrix.hpp:get_scattering_matrix,get_extinction_matrix,get_reduced_extinction_matrix"]}
{"id": "C77", "title": "Coefficients and absorption cross sections of the TMatrix class", "statement": "The scattering coefficient is the sum of the squared moduli of all elements of the T-matrix (degrees of both signs), the extinction coefficient the real part of its trace; the absorption cross sections are the extinction cross section minus the intensity scattered from the directions of the quadrature rule, for the requested angles and in the documented positions, and the average cross section is the quadrature of these over the cosine of the angle.", "quantifier": "all T-matrices, angles, quadrature sizes and output arrays", "why_tests_cant": "The statement is about every size/input; tests check a few literal inputs.", "anchors": ["src/TMatrix.hpp:get_scattering_coefficient,get_extinction_coefficient,get_absorption_cross_sections,get_absorption_cross_section,get_average_absorption_cross_section"]}
{"id": "C78", "title": "Scattering and extinction matrix resources", "statement": "After its execution an extinction matrix resource contains the matrix that describes the attenuation of the Stokes vector according to the forward amplitude matrix of the theory for its T-matrix, wavenumber and direction; after the first execution a scattering matrix resource contains the matrix that takes the Stokes vector of the incoming wave to that of the scattered wave for its orientation and directions (the same matrix as the stand-alone class computes), also for directions along the axis of the particle and for a T-matrix of an order below the maximum order.", "quantifier": "all T-matrices, wavenumbers, orientations, directions and maximum orders", "why_tests_cant": "The statement is about every size/input; tests check a few literal inputs.", "anchors": ["src/ExtinctionMatrixResource.hpp:execute,operator()", "src/ScatteringMatrixResource.hpp:execute,operator()"]}
{"id": "C79", "title": "Repeated execution of the matrix resources", "statement": "Executing an extinction or scattering matrix resource again, for the same T-matrix, wavenumber and angles, leaves the same matrix.", "quantifier": "all T-matrices, wavenumbers, angles and numbers of executions", "why_tests_cant": "The statement is about every size/input; tests check a few literal inputs.", "anchors": ["src/ExtinctionMatrixResource.hpp:execute", "src/ScatteringMatrixResource.hpp:execute"]}
{"id": "C80", "title": "The results do not depend on the schedule", "statement": "For the same input, every run of a table calculation ends with the same contents of every result and intermediate quantity, whatever the number of threads and queues, the timing, the random choices of the workers and the contents of uninitialised memory; they are what the tasks produce when they are run one after the other on one thread.", "quantifier": "all inputs, all numbers of queues and at most as many threads, all interleavings of single reads and writes of all tasks, all deterministic task bodies that keep to the data they declare", "why_tests_cant": "A test run exercises a handful of interleavings out of an unbounded number; a violated order or a double execution only shows up in rare schedules.", "anchors": ["quicksched/qsched.c:qsched_run_openmp", "src/QuickSchedWrapper.hpp:execute_tasks,execute_task", "src/TaskManager.hpp:generate_tasks", "src/TMatrixResource.hpp:TMatrixAuxiliarySpaceManager"]}
{"id": "C81", "title": "Results do not depend on the memory limit", "statement": "The memory limit given to a table calculation fixes how many T-matrices are kept in memory at the same time, and with it which calculation uses which interaction resource and T-matrix object, and in which order. For every two limits, numbers of threads, timings and random choices the calculations end with the same results.", "quantifier": "all numbers of slots, threads and queues, all graphs that generate_tasks produces, all interleavings down to single reads and writes, and all contents that the tasks compute", "why_tests_cant": "A test run exercises a handful of interleavings out of an unbounded number; a violated order or a double execution only shows up in rare schedules.", "anchors": ["src/TaskManager.hpp:generate_tasks (resource_reuse_index, unlock_tasks)", "src/TMatrixResource.hpp:ResetTMatrixResourceTask", "src/InteractionResource.hpp:ResetInteractionResourceTask"]}
{"id": "C82", "title": "A table calculation is the plain program", "statement": "However many threads, queues and slots are used, and however the threads are interleaved, a table calculation ends with the data that the obvious sequential program computes: compute the shared data, then for one T-matrix after the other try the orders, do all degrees, average over orientations, compute the quantities, and finally average over the shapes, with one set of objects.", "quantifier": "all parameters, numbers of slots, threads and queues, all interleavings down to single reads and writes, and all contents that the tasks compute", "why_tests_cant": "A test run exercises a handful of interleavings out of an unbounded number; a violated order or a double execution only shows up in rare schedules.", "anchors": ["src/TaskManager.hpp:generate_tasks", "quicksched/src/qsched.c:qsched_run_openmp"]}
{"id": "C83", "title": "Entries of the table are independent of each other", "statement": "Every entry of the table (one quantity for one composition, size and wavelength) is what the calculation of that entry alone gives. No other entry, and no other quantity that is asked for, has any influence on it.", "quantifier": "all entries of all tables, numbers of slots, threads and queues, all interleavings, and all contents that the tasks compute", "why_tests_cant": "A test run exercises a handful of interleavings out of an unbounded number; a violated order or a double execution only shows up in rare schedules.", "anchors": ["src/TaskManager.hpp:generate_tasks", "src/TMatrixResource.hpp:ResetTMatrixResourceTask", "src/InteractionResource.hpp:ResetInteractionResourceTask"]}
{"id": "C84", "title": "The entries of a table are the coefficients of the T-matrix method", "statement": "When a table calculation has finished, every entry holds the extinction coefficients, absorption coefficients or scattering matrices of the grains of that composition, size and wavelength, in exact arithmetic: the spheroids of all shapes of the distribution, with the T-matrix of the extended boundary condition method for the first order at which the cross sections have converged (or the last order), all degrees, averaged over the orientations, put into the amplitude matrix for the requested angles, with the optical theorem and the integral over the directions of the incoming light, and the weighted average over the shapes. These values are determined by the inputs. Conditions: the quadrature points are symmetric and inside the interval, the linear equations can be solved, the work space of the average over orientations is large enough for the order (C61), and no requested direction is within 10^-10 of the axis without being on it.", "quantifier": "all sizes, wavelengths, refractive indices, shape distributions, orientation distributions, orders, angles, quadrature rules and Bessel functions; all numbers of slots, threads and queues, and all interleavings down to single reads and writes", "why_tests_cant": "A test run exercises a handful of interleavings out of an unbounded number; a violated order or a double execution only shows up in rare schedules.", "anchors": ["src/TaskManager.hpp:generate_tasks", "src/TMatrixResource.hpp:TMatrixM0Task::execute,TMatrixMAllTask::execute", "src/InteractionResource.hpp:execute", "src/AlignmentAverageTask.hpp:execute", "src/ExtinctionCoefficientTask.hpp:execute", "src/AbsorptionCoefficientTask.hpp:execute", "src/ScatteringMatrixTask.hpp:execute", "src/ShapeAveragingTask.hpp"]}
{"id": "C85", "title": "Ratio of the equal-volume and equal-surface radius", "statement": "The ratio of the equal-volume radius to the equal-surface radius computed for an axis ratio is exactly the ratio for a spheroid with that axis ratio, where the surface area is the integral of the surface of revolution; for an axis ratio of 1 it is 1, for all others it is less than 1. The Python function get_equal_volume_radius gives the equal-volume radius of the spheroid with a given equal-surface radius, in the same unit of length.", "quantifier": "all positive axis ratios, oblate, prolate and spherical", "why_tests_cant": "The statement is about every size/input; tests check a few literal inputs.", "anchors": ["src/SpecialFunctions.hpp:get_equal_volume_to_equal_surface_area_sphere_ratio", "src/CTMModule.cpp:get_equal_volume_radius"]}
{"id": "C86", "title": "Array arguments are read as the numbers they show", "statement": "A function of the Python module that takes a scalar or an array argument works with the numbers that Python shows for it, in the same order, whatever the element type, strides and number of dimensions of the array (or it raises an exception).", "quantifier": "all arrays: element types, shapes, strides, memory contents", "why_tests_cant": "The statement is about every size/input; tests check a few literal inputs.", "anchors": ["src/PyHelperFunctions.hpp:unpack_numpy_array", "src/PyTMatrix.hpp"]}
{"id": "C87", "title": "Arrays returned by the methods of the Python TMatrix object", "statement": "The arrays returned by the methods of the Python TMatrix object have the shape of the product of the angle arguments (axes of length one removed, scalars allowed) and hold at every position the matrix or cross sections of the stand-alone class for the angles at that position.", "quantifier": "all T-matrices, all lists of angles", "why_tests_cant": "The statement is about every size/input; tests check a few literal inputs.", "anchors": ["src/PyTMatrix.hpp:get_extinction_matrix,get_scattering_matrix_element,get_absorption_cross_section,get_absorption_cross_sections"]}
{"id": "C88", "title": "Creating a Python TMatrix object", "statement": "The TMatrix object that is created from Python is the converged T-matrix of the spheroid with the given size (equal-volume or equal-surface radius), averaged over a distribution of the orientation angle for which the mean of the squared cosine is the requested value; a negative value means no averaging.", "quantifier": "all radii, axis ratios, wavelengths, refractive indices, alignment values, orders and tolerances", "why_tests_cant": "The statement is about every size/input; tests check a few literal inputs.", "anchors": ["src/PyTMatrix.hpp:init", "src/TMatrixCalculator.hpp", "src/DavisGreensteinOrientationDistribution.hpp", "src/MishchenkoOrientationDistribution.hpp"]}
{"id": "C89", "title": "The evaluate method of orientation distributions", "statement": "The evaluate method of an orientation distribution returns, for every given angle, the value of the density at that angle, in an array of the shape of the argument. For a density that is a polynomial in the cosine, of a degree up to the maximum order of the expansion, this is exact; for others it is the truncated series.", "quantifier": "all orientation distributions, orders and lists of angles", "why_tests_cant": "The statement is about every size/input; tests check a few literal inputs.", "anchors": ["src/PyOrientationDistribution.hpp:evaluate", "src/SpecialFunctions.hpp:wigner_dn_0m"]}
{"id": "C90", "title": "Values returned by user functions are used as they are", "statement": "A custom orientation distribution and custom dust properties call the Python function of the user with the documented arguments, and calculate with the number the function returns, whatever Python type that number has; a function that raises an exception leads to an exception.", "quantifier": "all user functions, arguments and returned objects", "why_tests_cant": "The statement is about every size/input; tests check a few literal inputs.", "anchors": ["src/PyOrientationDistribution.hpp:CustomOrientationDistribution::operator()", "src/PyDustProperties.hpp:CustomDustProperties::get_refractive_index"]}
{"id": "C91", "title": "Grains of a table are aligned as the alignment object says", "statement": "The T-matrix of a grain in a table is averaged over the orientation distribution that the alignment object given by the user assigns to its size and axis ratio: random orientation up to the minimum size, and above it the distribution of the requested type (mean squared cosine 3/5 or 1/5, perfect alignment, no averaging, or the user's own distributions for oblate and prolate grains), for every order that the calculation uses.", "quantifier": "all alignment objects, grain sizes, axis ratios, T-matrices and orders", "why_tests_cant": "The statement is about every size/input; tests check a few literal inputs.", "anchors": ["src/PyAlignmentDistribution.hpp:init", "src/SizeBasedAlignmentDistribution.hpp:get_distribution", "src/TaskManager.hpp:generate_tasks", "src/AlignmentAverageTask.hpp:execute"]}
{"id": "C92", "title": "The averaged T-matrix is the average over the orientations of the particle", "statement": "The T-matrix that the code computes for an ensemble of particles with a distribution of orientations is the average, over the azimuth and the polar angle of the symmetry axis, of the T-matrices of the rotated particle (Wigner's D functions). Elements with different projections, which are not stored, have the average zero.", "quantifier": "all distributions of the polar angle, all T-matrices of axisymmetric particles, orders and elements", "why_tests_cant": "The statement is about every size/input; tests check a few literal inputs.", "anchors": ["src/AlignmentAverageTask.hpp:execute", "src/SpecialFunctions.hpp:get_clebsch_gordan_coefficients", "src/OrientationDistribution.hpp"]}
{"id": "C93", "title": "The amplitude matrix and the extinction of an ensemble are averages over its orientations", "statement": "The amplitude matrix computed from the averaged T-matrix of an ensemble is the average over the orientations of the amplitude matrices of the single particle, for every pair of directions; so the extinction coefficients in a table of aligned grains are the averages of the extinction coefficients of the oriented grains. The amplitude matrix of a particle with given orientation angles is that of the particle turned by these angles, and is unique.", "quantifier": "all distributions of the polar angle, axisymmetric T-matrices, orders, directions and orientations", "why_tests_cant": "The statement is about every size/input; tests check a few literal inputs.", "anchors": ["src/TMatrix.hpp:get_forward_scattering_matrix", "src/AlignmentAverageTask.hpp:execute", "src/ExtinctionCoefficientTask.hpp:execute"]}
{"id": "C94", "title": "Scattering matrices and absorption coefficients of an ensemble are averages over its orientations", "statement": "For an ensemble of grains with a distribution of orientations, the scattering matrix and the absorption coefficients that are computed are the averages over the orientations of the scattering matrices and the absorption coefficients of the single grains.", "quantifier": "all distributions of the polar angle, axisymmetric T-matrices, orders and directions", "why_tests_cant": "The statement is about every size/input; tests check a few literal inputs.", "anchors": ["src/ScatteringMatrixTask.hpp:execute", "src/AbsorptionCoefficientTask.hpp:execute", "src/TMatrix.hpp:get_scattering_matrix", "src/TMatrix.hpp:get_scattering_coefficient", "src/AlignmentAverageTask.hpp:execute"]}
{"id": "C95", "title": "The scattering and extinction coefficients are cross sections averaged over directions, and energy is conserved", "statement": "The scattering coefficient of a particle, times 2 pi / k^2, is the average over all directions of the incoming light of the integral of the scattered intensity over all directions of the scattered light; the extinction coefficient, times - 2 pi / k^2, is the average of the extinction cross section that follows from the forward amplitude matrix. Both hold for every orientation of the particle. A particle that does not amplify never scatters, for any incoming direction, more light than its extinction cross section, and one that does not absorb scatters exactly as much.", "quantifier": "all axisymmetric T-matrices, orders, wave numbers, orientations and incoming directions", "why_tests_cant": "The statement is about every size/input; tests check a few literal inputs.", "anchors": ["src/TMatrix.hpp:get_scattering_coefficient", "src/TMatrix.hpp:get_extinction_coefficient", "src/TMatrix.hpp:get_forward_scattering_matrix", "src/TMatrix.hpp:get_scattering_matrix"]}
{"id": "C96", "title": "Grains without preferred orientation", "statement": "For an ensemble of axisymmetric grains in which all orientations are equally likely the forward amplitude matrix is a multiple of the unit matrix: -i/(2k) times the trace of the T-matrix of one grain, whatever the direction. Hence the extinction cross section is - 2 pi / k^2 times the real part of that trace, light of every polarisation is extinguished equally and its polarisation does not change; the whole amplitude matrix does not depend on an additional rotation of the ensemble. In tables, where the coefficients of the distribution are integrated numerically, the deviations are at most proportional to the error of those coefficients.", "quantifier": "all axisymmetric T-matrices, orders, wave numbers, directions, rotations, and coefficients of the distribution with any error", "why_tests_cant": "The statement is about every size/input; tests check a few literal inputs.", "anchors": ["src/TMatrix.hpp:get_forward_scattering_matrix", "src/TMatrix.hpp:get_extinction_matrix", "src/OrientationDistribution.hpp:initialise", "src/AlignmentAverageTask.hpp:execute", "src/ExtinctionCoefficientTask.hpp:execute"]}
{"id": "C97", "title": "Numbers in texts", "statement": "A text that starts with a decimal number (optional white space and sign, digits with or without a decimal point, optional exponent) is read as exactly that number, everything after the number is left over, nothing else is read as a number, and a text without digits is refused. The text that is written for a number is read back as that number rounded to six significant digits (relative deviation at most 5e-6), numbers with at most six digits are read back unchanged, and writing and reading a second time changes nothing more. The same holds for both parts of complex numbers and for physical quantities, which are written with their SI unit; a number and a unit separated by any number of spaces are read as the quantity in that unit.", "quantifier": "all texts, all real and complex numbers, all physical quantities and units", "why_tests_cant": "The statement is about every size/input; tests check a few literal inputs.", "anchors": ["src/Utilities.hpp:convert", "src/Utilities.hpp:to_string", "src/Utilities.hpp:split_value", "src/YAMLDictionary.hpp:get_physical_value"]}
{"id": "C98", "title": "The stand-alone program and its file of used values", "statement": "The program is started with -p FILE -o FILE (or the long names). The parameters of a run are the values in the parameter file, converted to SI units, and the documented default for each key that is not in the file; a file with a value that cannot be converted is refused. The program then computes the T-matrix for exactly these parameters and writes the 4 by 4 extinction matrix for the orientation and direction in the file to the output file. It never writes an output file for anything else, and without one of the two options it ends with an error. The file with the used values is again a valid parameter file and a run with it has the same parameters.", "quantifier": "all parameter files, command lines, times of the run, and all T-matrix constructors", "why_tests_cant": "The statement is about every size/input; tests check a few literal inputs.", "anchors": ["src/CosTuuM.cpp:main", "src/ParameterFile.cpp:print_contents", "src/ParameterFile.hpp:get_physical_value", "src/Utilities.hpp:get_timestamp", "src/CommandLineParser.cpp:parse_arguments"]}
{"id": "C99", "title": "get_table from the call to the returned arrays", "statement": "A call of get_table uses the arrays, the three objects and the options as they are given, and the documented defaults for options that are left out (orders 10 to 100, 2 quadrature points per order, tolerance 1e-4, 20 angles, 1e10 bytes, 4 threads, absorption only). Whatever the schedule, the calculation ends and the tables that were asked for are returned: their axes of length 1 are dropped and the entry at composition it, size is, wavelength il, angle itheta and column k is that coefficient (or scattering matrix element) of the grains with the composition, size and wavelength at these positions of the arguments. Wrong objects and numbers out of range raise an exception.", "quantifier": "all calls (arrays of any layout, objects, options), schedules, numbers of threads and of T-matrices that fit in memory", "why_tests_cant": "The statement is about every size/input; tests check a few literal inputs.", "anchors": ["src/CTMModule.cpp:get_table", "src/TaskManager.hpp:generate_tasks", "src/PyHelperFunctions.hpp:unpack_numpy_array", "src/ResultKey.hpp:get_result_index"]}
{"id": "C100", "title": "Absorption coefficients when the grid of directions is refined", "statement": "When scattering is accounted for, the absorption coefficients of a table tend, for finer and finer grids of directions, to the absorption cross sections: Qabs + Qabspol to what grains absorb of vertically polarised light from the direction of the table and Qabs - Qabspol of horizontally polarised light, that is, what is lost from the beam minus what is scattered from it into all directions, although the code sums over directions the light comes from (reciprocity). So grains that do not amplify get (up to any given error) no negative absorption and no polarisation above it, and grains with fixed orientations that do not absorb get zero.", "quantifier": "all grains whose T-matrices are reciprocal, all distributions of shapes and orientations, directions, orders and all sufficiently fine grids", "why_tests_cant": "The statement is about every size/input; tests check a few literal inputs.", "anchors": ["src/AbsorptionCoefficientTask.hpp:AbsorptionCoefficientGrid", "src/AbsorptionCoefficientTask.hpp:AbsorptionCoefficientTask", "src/SpecialFunctions.hpp:get_gauss_legendre_points_and_weights", "src/AlignmentAverageTask.hpp:execute"]}
{"id": "C101", "title": "Spheres are the grains of Mie theory", "statement": "For grains with axis ratio 1 the calculation for spheroids reduces to Mie theory: the equations for the T-matrix can always be solved, the T-matrix is diagonal with the negatives of the Mie coefficients, which are the same for all projections and do not change when the grains are aligned; the extinction coefficients in the table are the Mie efficiencies, equal for all directions and without polarisation, for every distribution of weights over shapes that are all spheres; the order used is the one at which the Mie series have converged; and the absorption coefficients tend to extinction minus scattering when the grid of directions is refined, which is not negative and zero if the refractive index is real.", "quantifier": "all sizes, wavelengths, refractive indices of materials that do not amplify, orders, directions, alignments, schedules, numbers of threads and memory limits", "why_tests_cant": "The statement is about every size/input; tests check a few literal inputs.", "anchors": ["src/TMatrixResource.hpp:TMatrixM0Task", "src/TMatrixResource.hpp:TMatrixMAllTask", "src/ParticleGeometryResource.hpp:ParticleGeometryResource", "src/ExtinctionCoefficientTask.hpp:ExtinctionCoefficientTask", "src/AbsorptionCoefficientTask.hpp:AbsorptionCoefficientTask", "src/AlignmentAverageTask.hpp:execute"]}
{"id": "C102", "title": "Python objects live as long as they are used", "statement": "Nothing that is still needed is destroyed: in every history of Python calls in which the program uses objects it has references on, no destroyed object and no null pointer is used; objects of the module keep the functions and arguments they were given after the program has given them up; every object behaves as it was created until its own __init__ is called, so an alignment object does not change when the orientation objects it was made from are dropped or initialised again; and when the program has given up everything, everything is destroyed. Violated: a second __init__, the average over orientations of a T-matrix (the default), numbers in place of arrays, arrays before a wrong argument and every result with several axes (every table) leave an object that is never destroyed; an instance made with __new__ has a null pointer that its methods use; and the names of the classes are addresses of strings that were destroyed when the module was imported.", "quantifier": "all histories of calls of the Python interface, of any length, with correct and wrong arguments", "why_tests_cant": "Lifetimes depend on the whole history of calls; a use of a destroyed object often works by chance in a test, and a leak is not visible in a result.", "anchors": ["src/CTMModule.cpp:get_table", "src/PyShapeDistribution.hpp:dealloc", "src/PyOrientationDistribution.hpp:PyCustomOrientationDistributionObject", "src/PyDustProperties.hpp:PyCustomDustPropertiesObject", "src/PyAlignmentDistribution.hpp:init", "src/PyTMatrix.hpp:init", "src/PyHelperFunctions.hpp:unpack_numpy_array"]}
{"id": "C103", "title": "Averages over the shapes of a distribution", "statement": "A SingleShapeShapeDistribution has one shape and its average is the value of that shape. A DraineHensleyShapeDistribution with a positive cut-off below the largest density (64/135) and a positive number of points is created, its limits enclose the sphere and lie at densities below the cut-off, its shapes lie between the limits and have positive weights, so that an average lies between the smallest and the largest value; and with more points the average tends to the mean over the CDE2 distribution between the limits, for every value that is bounded and continuous up to finitely many jumps. Violated: a larger cut-off gives shapes without weight (a division by zero), a cut-off of zero or less and a fraction of 1.02 or more make the constructor run for ever, and zero points are accepted.", "quantifier": "all axis ratios, cut-offs, fractions and numbers of points, all values of a shape", "why_tests_cant": "Convergence and the limits are statements about all real arguments; a constructor that does not end cannot be observed by a test.", "anchors": ["src/PyShapeDistribution.hpp:init", "src/PyShapeDistribution.hpp:get_limits", "src/SingleShapeShapeDistribution.hpp:SingleShapeShapeDistribution", "src/DraineHensleyShapeDistribution.hpp:DraineHensleyShapeDistribution", "src/ShapeDistribution.hpp:evaluate", "src/ShapeAveragingTask.hpp:execute"]}
{"id": "C104", "title": "The memory that is accounted for is the memory that is used", "statement": "Before a table is computed, the memory of all objects is added up for the comparison with the memory limit and for the memory log. Every object that is created later was accounted for exactly once, and the size of every object is that of its elements. Violated for six kinds of objects: the difference is computed exactly for every calculation; the objects always occupy more than is accounted for if absorption is averaged over at least as many directions as there are angles in the table (a result of scattering occupies 2n times its size). The Matrix and Resource objects in vectors are never counted.", "quantifier": "all numbers of compositions, sizes, wavelengths, shapes, angles, orders, slots, all combinations of quantities, all sizes of the types", "why_tests_cant": "The statement is about every size/input; tests check a few literal inputs.", "anchors": ["src/TaskManager.hpp:generate_tasks", "src/TaskManager.hpp:add_memory_allocation", "src/NBasedResources.hpp:get_memory_size", "src/AbsorptionCoefficientTask.hpp:get_memory_size", "src/ScatteringMatrixTask.hpp:get_memory_size", "src/TMatrixResource.hpp:get_memory_size", "src/InteractionResource.hpp:get_memory_size"]}
{"id": "C105", "title": "Tables are read from text files as they are written there", "statement": "A table is read from a text file: lines that start with # are comments, every other line is a row of numbers, separated by blanks, and the rows are in the table in the order of the lines. A file that can not be opened is an error. With the data files of the code, for every wavelength in the range of the files the refractive index of silicates is the interpolation between two consecutive lines and has positive real and imaginary part, and that of carbon belongs to the interpolated dielectric function with the free electron term of the grain. Violated: empty lines and comments with blanks in front are rows of zeros; missing numbers and numbers that can not be read are zero; a wavelength outside the range of the file is not refused (above 0.24 m silicates have a negative imaginary part).", "quantifier": "all files, all numbers of columns, all ways to write a number, all wavelengths, sizes and temperatures", "why_tests_cant": "The statement is about every size/input; tests check a few literal inputs.", "anchors": ["src/Table.hpp:from_ascii_file", "src/Table.hpp:get_row", "src/DraineDustProperties.hpp:DraineDustProperties", "src/DraineDustProperties.hpp:get_refractive_index", "data/callindex.out_silD03", "data/callindex.out_CpaD03_0.10", "data/callindex.out_CpeD03_0.10"]}
{"id": "C106", "title": "The recorded times and thread numbers of the tasks tell the truth", "statement": "For every task that was executed, the recorded start, the call of the task, the recorded end and the end of the run follow each other in this order. If one task waits for another, its recorded start does not precede the recorded end of the other. The recorded intervals of two tasks that need conflicting resources do not overlap, and neither do those of two tasks with the same recorded thread number, which is the number the task was called with. The recorded durations of the tasks of one thread add up to at most the duration of the run, and so do those of the tasks of any chain of dependencies.", "quantifier": "all task graphs, resource trees, numbers of threads, schedules, random choices and durations", "why_tests_cant": "A test run exercises a handful of interleavings out of an unbounded number; a violated order or a double execution only shows up in rare schedules.", "anchors": ["quicksched/qsched.c:qsched_gettask", "quicksched/qsched.c:qsched_done", "quicksched/qsched.c:qsched_run_openmp", "quicksched/task.h:struct task", "src/QuickSchedWrapper.hpp:Task::print"]}
{"id": "C107", "title": "The log files say what is in the scheduler", "statement": "Cutting the graph log into lines and fields gives exactly one record per call (two for a resource with a parent), in the order of the calls, with the numbers of tasks and resources the scheduler uses; different sequences of calls have different logs. The locks, uses, unlocks and parents in the prepared scheduler are those of the writelink, readlink, tasklink and child lines, in the same order. The task log has one line per task with its thread, start, end, type and number. The type number of every task stands in exactly one line of the type log, next to the name that the graph log gives for this task.", "quantifier": "all sequences of calls, all numbers, all type names without tabs and newlines, all orders of the type dictionary", "why_tests_cant": "The statement is about every size/input; tests check a few literal inputs.", "anchors": ["src/QuickSchedWrapper.hpp:register_resource", "src/QuickSchedWrapper.hpp:register_task", "src/QuickSchedWrapper.hpp:link_task_and_resource", "src/QuickSchedWrapper.hpp:link_tasks", "src/QuickSchedWrapper.hpp:print_task", "src/QuickSchedWrapper.hpp:print_type_dict", "src/CTMModule.cpp:get_table"]}
{"id": "C108", "title": "Priorities as they are stored", "statement": "The stored priority of a task is the largest total cost of a chain of tasks that starts with it, although costs and priorities are stored as 32 bit integers: in the first run, where every task has cost 1, for all graphs with fewer than 2^31 tasks; in a later run, where the cost of a task is its measured duration, if the previous run took less than 2^31 ticks. Violated: a task that takes 2^31 to 2^32 ticks (about a second) has a negative cost, a chain of two tasks of 2^30 ticks gets the lowest possible priority, and the cost that a task announces with get_cost is never used, although it is documented to raise the priority.", "quantifier": "all task graphs, costs, schedules and durations", "why_tests_cant": "A test run exercises a handful of interleavings out of an unbounded number; a violated order or a double execution only shows up in rare schedules.", "anchors": ["quicksched/qsched.c:qsched_prepare", "quicksched/qsched.c:qsched_done", "quicksched/task.h:struct task", "src/QuickSchedWrapper.hpp:register_task", "src/QuickSchedWrapper.hpp:Task::get_cost", "src/TMatrixResource.hpp:TMatrixMAllTask::get_cost"]}
{"id": "C109", "title": "Typed command line values", "statement": "get_value returns the value that was given for an option on the command line (the last one), or else the default value with which the option was added, in the type of the option, and was_found tells which of both it is; a required option was given with an argument, and there is no value for an option that was not added; the help text puts the options that may be left out between brackets and calls the others required. Violated: real numbers are rounded to six significant digits, also those the user gives; the default value of a flag is ignored; a negative number is not accepted as a separate argument; a text option with an empty default is described as required.", "quantifier": "all sets of options, default values and command lines", "why_tests_cant": "there are unlimited many option sets, values and command lines; tests use short decimal numbers that survive the conversions to text", "anchors": ["src/CommandLineParser.hpp:add_option", "src/CommandLineParser.hpp:add_required_option", "src/CommandLineParser.hpp:get_value", "src/CommandLineParser.hpp:was_found", "src/CommandLineOption.cpp:print_usage", "src/CommandLineOption.cpp:print_description", "src/CommandLineOption.cpp:parse_argument"]}
{"id": "C110", "title": "The picture of a task graph", "statement": "The Graphviz file that tools/plot_taskgraph.py makes from the graph log of a run has exactly one arrow for every pair of classes of tasks that wait for each other, and for every class of tasks and class of resources it reads (blue) or writes (red), and for every child and parent (green); no arrow is missing, repeated or invented, the resources that are used are the nodes, and the labels are the names of the classes. Violated: the label of a class whose name has 100 characters or more starts with a digit, and a resource that is only used through its parts is not declared as a node, so that it is shown with the wrong label.", "quantifier": "all sequences of registrations and links", "why_tests_cant": "there are unlimited many task graphs, and the picture of a large one is not inspected arrow by arrow", "anchors": ["tools/plot_taskgraph.py:trim_label", "tools/plot_taskgraph.py", "src/QuickSchedWrapper.hpp:register_task", "src/QuickSchedWrapper.hpp:register_resource", "src/QuickSchedWrapper.hpp:link_tasks", "src/QuickSchedWrapper.hpp:link_task_and_resource"]}
{"id": "C111", "title": "Random numbers", "statement": "random_double returns a number between 0 and 1, and random_int(min, max) an integer of at least min and less than max, each with the same probability. Violated: max itself is returned when rand returns RAND_MAX, and because the conversion to an integer cuts towards 0, negative numbers are shifted: random_int(-1, 0) is 0, which is excluded, for all values of rand but one, and random_int(-1, 1) is 0 for all values but two.", "quantifier": "all values of rand and RAND_MAX, all bounds, all monotone roundings that keep numbers of 53 bits", "why_tests_cant": "the values of rand for which the bounds are violated are too rare for a test with positive bounds, and the distribution is not visible in single values", "anchors": ["src/Utilities.hpp:random_double", "src/Utilities.hpp:random_int"]}
{"id": "C112", "title": "The plot of the tasks of a run", "statement": "The plot that tools/plot_tasks.py makes from the task log and the type log of a run shows every task once, as a bar of the thread that executed it, from its start to its end, in the colour of its type, and the names in the legend are those of the types. The bars of one thread do not overlap, and the load that is written next to a thread is between 0 and 100 percent. Violated: the script expects four columns, but the log has five, which numpy refuses since version 1.23; the name of a class with 99 characters lacks its last character; more than 20 types share colours.", "quantifier": "all logs, and all executions of all task graphs on any number of threads", "why_tests_cant": "the overlap of bars depends on the schedule, and a plot is not inspected bar by bar", "anchors": ["tools/plot_tasks.py", "src/QuickSchedWrapper.hpp:print", "src/CTMModule.cpp:get_table", "quicksched/qsched.c:qsched_gettask", "quicksched/qsched.c:qsched_done"]}
{"id": "C113", "title": "Spheres scatter light as in Mie theory", "statement": "For grains with axis ratio 1 the scattering matrices in a table, and the amplitude matrices that the direct interface gives, are those of Mie theory: for every pair of directions the component of the field perpendicular to the scattering plane is multiplied with the amplitude S1, the one in the scattering plane with S2, which depend on the angle between the directions only; the intensity scattered by a sphere in unpolarised light is half the sum of the squares of both amplitudes, its integral over all directions is the scattering efficiency of Mie theory times the area of the disc, and turning a sphere changes nothing.", "quantifier": "all sizes, wavelengths, refractive indices of materials that do not amplify, orders, pairs of directions, polarisations, angles of orientation, alignments, schedules, numbers of threads and memory limits", "why_tests_cant": "the statement is about all pairs of directions and all sizes; tests compare a few angles with a reference code", "anchors": ["src/ScatteringMatrixTask.hpp:ScatteringMatrixTask", "src/AbsorptionCoefficientTask.hpp:AbsorptionCoefficientTask", "src/TMatrix.hpp:get_forward_scattering_matrix", "src/TMatrixResource.hpp:TMatrixM0Task", "src/ScatteringMatrixResource.hpp:ScatteringMatrixResource"]}
{"id": "C114", "title": "Small spheres are dipoles", "statement": "For grains with axis ratio 1 that are small compared with the wavelength: for every refractive index (apart from the resonances), every largest order and every tolerance there is a size parameter below which every table holds, up to the tolerance, the values of an electric dipole with the Clausius-Mossotti polarisability. The extinction efficiency is 4 x Im((m^2-1)/(m^2+2)), without polarisation; the scattering efficiency 8/3 x^4 |(m^2-1)/(m^2+2)|^2, so that extinction is absorption; and the intensity scattered by an angle with cosine mu is proportional to 1 + mu^2, for all directions of the table.", "quantifier": "all refractive indices of materials that do not amplify except for values of m^2 below -1, all largest orders, tolerances, parameters of the calculation, directions, schedules, numbers of threads and memory limits", "why_tests_cant": "a limit: it is about all sizes below a bound; tests compare single sizes", "anchors": ["src/TMatrixResource.hpp:TMatrixM0Task", "src/TMatrixResource.hpp:TMatrixMAllTask", "src/ExtinctionCoefficientTask.hpp:ExtinctionCoefficientTask", "src/ScatteringMatrixTask.hpp:ScatteringMatrixTask", "src/AbsorptionCoefficientTask.hpp:AbsorptionCoefficientTask", "src/SpecialFunctions.hpp:spherical_j_jdj_array"]}
{"id": "C115", "title": "The order that is used is large enough", "statement": "For spherical grains the series of Mie theory converge, and the efficiencies of the table tend to the infinite series when more orders are allowed: for every refractive index, size parameter and required accuracy there are a tolerance and a largest order, such that every calculation with a smaller tolerance and a larger largest order returns the extinction efficiency of Mie theory, for all orders, to that accuracy, without polarisation. For a given tolerance the calculation stops at an order that does not grow with the largest order that is allowed (unless m^2 = 1, or m^2 = -1): beyond some order the criterion of convergence is always met, although it is relative and requires a non-zero difference.", "quantifier": "all refractive indices with m^2 not -1, size parameters, required accuracies, tolerances below and largest orders above the bounds, parameters of the calculation, schedules, numbers of threads and memory limits", "why_tests_cant": "a limit: it is about all orders above a bound; tests compare single sizes with a reference that is itself truncated", "anchors": ["src/TMatrixResource.hpp:TMatrixM0Task", "src/TMatrixResource.hpp:TMatrixQTask", "src/ExtinctionCoefficientTask.hpp:ExtinctionCoefficientTask", "src/TaskManager.hpp:TaskManager::generate_tasks", "src/SpecialFunctions.hpp:spherical_j_jdj_array", "src/SpecialFunctions.hpp:spherical_y_ydy_array"]}
{"id": "C116", "title": "The scattered light tends to that of Mie theory", "statement": "For spherical grains the amplitudes and the intensity of the scattered light tend to those of the infinite series of Mie theory when more orders are allowed, for all directions alike: for every refractive index, size parameter and required accuracy there are a tolerance and a largest order, such that in every calculation with a smaller tolerance and a larger largest order the first elements of all scattering matrices of the table (the intensities for unpolarised light) are within that accuracy of Mie theory, for the whole grid of outgoing directions, whatever its size; and the value to which the absorption coefficients tend when the grid of directions is refined is within that accuracy of the absorption efficiency of Mie theory. In the limit the scattering efficiency is not larger than the extinction efficiency, and equal to it for grains that do not absorb.", "quantifier": "all refractive indices with m^2 not -1, size parameters, required accuracies, tolerances below and largest orders above the bounds, sizes of the grid of directions, parameters of the calculation, schedules, numbers of threads and memory limits", "why_tests_cant": "a uniform limit: it is about all orders above a bound and all directions", "anchors": ["src/TMatrixResource.hpp:TMatrixM0Task", "src/TMatrixResource.hpp:TMatrixMAllTask", "src/ScatteringMatrixTask.hpp:ScatteringMatrixTask", "src/ScatteringMatrixTask.hpp:ScatteringMatrixGrid", "src/SpecialFunctions.hpp:wigner_dn_0m_sinx"]}
{"id": "C117", "title": "Only the ratio of size and wavelength matters", "statement": "When all grain sizes and all wavelengths of a table are multiplied with the same positive factor, and the refractive indices, shapes and alignments stay the same, the T-matrices and the order that is used stay the same; the extinction and absorption efficiencies in the table, with their polarisation, are the same, and all elements of all scattering matrices are multiplied with the square of the factor. This holds for the results of any two runs of the two calculations, whatever their schedules, numbers of threads and queues, and reserved memory.", "quantifier": "all grains (sizes, shapes, compositions, alignments), factors, parameters of the calculation, directions, pairs of schedules, numbers of threads and memory limits", "why_tests_cant": "it relates two executions for all inputs and factors; a test compares a few of them", "anchors": ["src/TMatrixResource.hpp:TMatrixM0Task", "src/TMatrixResource.hpp:TMatrixMAllTask", "src/InteractionResource.hpp:InteractionResource", "src/InteractionResource.hpp:InteractionTask", "src/ExtinctionCoefficientTask.hpp:ExtinctionCoefficientTask", "src/AbsorptionCoefficientTask.hpp:AbsorptionCoefficientTask", "src/ScatteringMatrixTask.hpp:ScatteringMatrixTask"]}
{"id": "C118", "title": "Tables have the mirror symmetry of the grains", "statement": "The grains look the same upside down, and so do the tables: the extinction and absorption efficiencies for two polar angles that add up to half a turn are the same, with their linear and circular polarisation, and the scattering matrix for the outgoing direction that is mirrored in the plane perpendicular to the axis is the same except that the elements which couple the first two Stokes parameters to the last two have the opposite sign (the light comes in in this plane). This holds for all grains and alignments, for the result of every schedule; for absorption coefficients and scattering matrices the quadrature points have to be symmetric, as those of a Gauss-Legendre rule are (C32).", "quantifier": "all grains (sizes, shapes, compositions, alignments), wavelengths, pairs of directions, schedules, numbers of threads and memory limits", "why_tests_cant": "it relates entries of a table for all inputs; a test compares a few of them", "anchors": ["src/TMatrixResource.hpp:TMatrixMAllTask", "src/TMatrixResource.hpp:TMatrixResource", "src/AlignmentAverageTask.hpp:AlignmentAverageTask", "src/ExtinctionCoefficientTask.hpp:ExtinctionCoefficientTask", "src/AbsorptionCoefficientTask.hpp:AbsorptionCoefficientTask", "src/ScatteringMatrixTask.hpp:ScatteringMatrixTask"]}
{"id": "C119", "title": "Light is scattered to the left as it is to the right", "statement": "In a table the scattering matrices for two outgoing directions with the same polar angle and with azimuths that add up to a full turn (mirror images in the plane of the axis and the incoming light) are the same, except that the elements which couple the first two Stokes parameters to the last two have the opposite sign. This holds for all grains and alignments, for the result of every schedule; the azimuths of a symmetric quadrature rule come in such pairs.", "quantifier": "all grains (sizes, shapes, compositions, alignments), wavelengths, pairs of directions, schedules, numbers of threads and memory limits", "why_tests_cant": "it relates entries of a table for all inputs; a test compares a few of them", "anchors": ["src/TMatrixResource.hpp:TMatrixM0Task", "src/TMatrixResource.hpp:TMatrixMAllTask", "src/AlignmentAverageTask.hpp:AlignmentAverageTask", "src/ScatteringMatrixTask.hpp:ScatteringMatrixTask", "src/ShapeAveragingTask.hpp"]}
{"id": "C120", "title": "Light along the axis is extinguished the same for all polarisations", "statement": "For light that comes along the axis of the grains, from either side, the linear and the circular polarisation of the extinction in a table are zero, and so is the linear polarisation of the absorption when the table is made without accounting for scattering. This holds for all grains and alignments, for the result of every schedule.", "quantifier": "all grains (sizes, shapes, compositions, alignments), wavelengths, schedules, numbers of threads and memory limits", "why_tests_cant": "it is a property of the entries of a table for all inputs; a test looks at a few of them", "anchors": ["src/ExtinctionCoefficientTask.hpp:ExtinctionCoefficientTask", "src/AbsorptionCoefficientTask.hpp:AbsorptionCoefficientTask", "src/ShapeAveragingTask.hpp"]}
{"id": "C121", "title": "Absorption is at most extinction", "statement": "In a table with extinction and absorption coefficients of the same grains, the absorption efficiency is at most the extinction efficiency, for unpolarised light and for light that is polarised along one of the two reference directions (the polarisation of the difference is at most the difference), whatever the numbers of quadrature points; when scattering is not accounted for the two are the same. This holds for all grains and alignments, for the result of every schedule; the weights of the shapes and of the quadrature rule must not be negative.", "quantifier": "all grains (sizes, shapes, compositions, alignments), wavelengths, directions, numbers of quadrature points, schedules, numbers of threads and memory limits", "why_tests_cant": "it relates two entries of a table for all inputs; a test compares a few of them", "anchors": ["src/ExtinctionCoefficientTask.hpp:ExtinctionCoefficientTask", "src/AbsorptionCoefficientTask.hpp:AbsorptionCoefficientTask", "src/ShapeAveragingTask.hpp"]}
