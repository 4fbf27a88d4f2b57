# A machine checked model of CosTuuM in Lean 4

## Trusted base

* Lean 4.33.0's kernel and the Mathlib that is installed with it (no `require` added, no axioms added).
* Axioms: the theorems depend at most on `propext`, `Classical.choice`, `Quot.sound` (the check is part of
  `vcheck`; `#print axioms` on any theorem named in `MANIFEST.json` shows the exact list).
* The correspondence between `/repo` and the definitions in `lean/Verif/Model/*.lean`. It is established by reading:
  every definition carries a comment with file and line numbers. Nothing is extracted automatically.
* Modelling conventions used everywhere (deviations are noted at the definition):
  * C/C++ unsigned and signed integers are `Nat`/`Int` unless wrap-around is the point (MD5 uses `BitVec 32`/`UInt`
    semantics). Where the code would overflow, the hypothesis that it does not is in the theorem.
  * `float_type`/`double` are replaced by an arbitrary (linearly ordered) field, `Rat`, `Real` or `Complex`:
    rounding, NaN and infinities are **not** modelled.
  * `std::vector`/C arrays are lists, arrays or functions `Nat -> a` together with an explicit length; out of bounds
    accesses and other undefined behaviour are a distinct outcome (`ub`) where a property is about them.
  * `ctm_error`/`quicksched_error` (abort) is a distinct outcome (`error`). `ctm_assert` is only compiled in with
    HAVE_ASSERTIONS; what is assumed is said at each definition.
  * Concurrency: sequentially consistent interleaving of atomic steps (each lock operation, each atomic add, each
    critical section of a queue that is protected by the queue lock). The C memory model beyond that is not modelled.

## What is modelled, and what is not

| files in `/repo/src`, `/repo/quicksched` | model module | not modelled in them |
|---|---|---|
| `quicksched/qsched.c`, `queue.c`, `task.h`, `res.h`, `lock.h`, `cycle.h` | `Sched`, `Queue`, `Prepare`, `Run`, `Store`, `Flags`, `Api`, `Times`, `Cost` | the pthread runner, the timers of `qsched_timer_*`, the C memory model (see above) |
| `QuickSchedWrapper.hpp` | `Wrapper`, `LogFile`, `Cost` | |
| `TaskManager.hpp`, `CTMModule.cpp`, `ResultKey.hpp`, `Result.hpp` | `Graph` (generated task graph), `Table` (result order), `Account` (dry run and memory), `Memory`, `GetTable` | NumPy internals |
| `Matrix.hpp` | `Matrix` | |
| `SpecialFunctions.hpp` | `Special`, `Quadrature`, `Clebsch` (and `Wigner`, `Bessel`, `Legendre` properties) | rounding; the Newton iteration of the Gauss-Legendre roots is an assumed root finder |
| `NBasedResources`, `GaussBasedResources`, `WignerDResources`, `ParticleGeometryResource`, `InteractionResource`, `ConvergedSizeResources`, `TMatrixResource` | `TMatrix`, `WignerTable`, `Special` | |
| `AlignmentAverageTask` | `Alignment` | |
| `ExtinctionCoefficientTask`, `AbsorptionCoefficientTask`, `ScatteringMatrixTask` | `Scatter` | |
| `ShapeAveragingTask`, `Table.hpp` | `Interp`, `TableFile` | infinities, NaN and hexadecimal numbers in table files |
| `ShapeDistribution`, `DraineHensleyShapeDistribution` | `Shape` | |
| `OrientationDistribution`, `AlignmentDistribution` and subclasses | `Orientation`, `Quadrature` | |
| `RefractionEvent`, `DustProperties`, `DraineDustProperties`, `data/callindex.out_{silD03,CpaD03_0.10,CpeD03_0.10}` | `Optics`, `DustFiles`, `DustData` | the numbers of the data files are transcribed by `tools/gen_dust_data.py` (trusted; it checks that the layout reproduces every line) |
| `TMatrixCalculator` | `Calculator` | |
| `TMatrix.hpp` | `Direct`, `DirectScatter` | |
| calls of the user function (`qsched.c:334`, `QuickSched::execute_task`) with the data the tasks work on | `Exec` | the task bodies are arbitrary programs with the footprints of `Spec/Graph` |
| references to the reused objects handed to the tasks (`generate_tasks`), clearing tasks | `Slots` | as above |
| contents of all tasks: which objects and constants `generate_tasks` (TaskManager.hpp:439-1347) hands to which task, as programs on locations in memory | `Content` (specification `Spec.Content`; proofs `Content`, `ContentRun`, `ContentCell`, `ContentEntry`, `ContentGrain`, `ContentEnsemble`, `ContentValue`) | exact arithmetic; Gauss-Legendre rule and Bessel routines are inputs (C32, C62); a task reads before it writes; an access beyond the end of a vector in the alignment task makes its result unknown |
| `ExtinctionMatrixResource.hpp`, `ScatteringMatrixResource.hpp` | `MatrixResource` | the availability flag |
| `Utilities.hpp` | `Text`, `Decimal`, `RandomNumbers`, `Program` (time stamps) | `as_bytes`, `as_double` |
| `Unit.hpp`, `UnitConverter.hpp`, `PhysicalConstants.hpp` | `Units` | |
| `YAMLDictionary.hpp` | `Yaml` | value types other than those listed in the module |
| `CommandLineParser`, `CommandLineOption` | `CommandLine`, `OptionValues` | |
| `SpecialFunctions.hpp:557-583` | `Spheroid` | |
| `PyHelperFunctions.hpp`, argument arrays | `Numpy`, `Lifetime` | keyword parsing |
| `PyTMatrix.hpp` | `Python`, `PythonInit`, `Lifetime` | keyword parsing |
| `PyOrientationDistribution.hpp`, `PyDustProperties.hpp`, `PyShapeDistribution.hpp` | `Evaluate`, `Callback`, `ShapeObject`, `Lifetime` | keyword parsing |
| `PyAlignmentDistribution.hpp` | `PythonAlign`, `Lifetime` | keyword parsing |
| `MD5Sum.hpp` | `Md5` | opening the file |
| `CosTuuM.cpp`, `ParameterFile` | `Program` | terminal output |
| `tools/plot_taskgraph.py`, `tools/plot_tasks.py` | `TaskGraph`, `TaskPlot` | the drawing itself |
| `Error.hpp`, `CompilerInfo`, `ConfigurationInfo`, `scripts`, the other files of `tools`, `benchmark`, keyword parsing of `Py*` | none | all |

Not modelled anywhere: floating point rounding, NaN and infinities; allocation failure; the file system.

## Layout

* `lean/Verif/Model/*.lean`   definitions, each citing `/repo`.
* `lean/Verif/Spec/*.lean`    small independent specifications (only where the statement needs vocabulary of its own).
* `lean/Verif/Proofs/*.lean`  lemmas.
* `lean/Verif/Properties/*.lean`  the property theorems, each with a concrete instance beside it.
* `MANIFEST.json`  property -> theorem names. `seeded/LOG.jsonl`  mutation experiments.

## Plan per property

| id | model | proof idea |
|----|-------|-----------|
| C01 C02 | small step transition system of the workers (`gettask`/`done`/`enqueue`), arbitrary threads | inductive invariant: every task is in exactly one place; wait counter = number of unfinished predecessor links |
| C03 C04 | transition system with one step per lock/hold operation of `lockres`/`unlockres` | invariant: hold = number of holders below; held resource has no owner above/below |
| C05 | same systems | quiescent states have a lockable task; a finishing schedule is constructed from every reachable state (well founded measure) |
| C06 C07 C14 | functional model of `qsched_prepare` | Kahn invariant; strong induction along topological order |
| C08 | counting sort on arrays | stable sort = concatenation of filters |
| C09 C10 | array heap with `queue_put`/`queue_get` | permutation + heap invariants of sift up/down |
| C11 | fold over queues | fold invariant |
| C12 C13 | growable arrays / byte buffer | list lemmas; negative witness for C13 |
| C15 | step system with flags | negative witness + invariant `waiting > 0` forever |
| C16 C17 | wrapper state | induction over registrations; witness for division by zero |
| C18 | thread id = omp id mod queues | arithmetic, witness for failure |
| C19 C22 C23 C24 C25 | generator of the task graph as lists of typed tasks, links and locks | rank function, explicit dependency paths |
| C20 C21 C55 | index arithmetic and sort | mixed radix injectivity; witness for unsorted inputs |
| C26 | memory manager arithmetic | division lemmas |
| C27 C29 C30 C54 | index functions | arithmetic |
| C28 | in-place PLU over a field | loop invariants, product of elementary operations |
| C31 | recurrence of `wigner_dn_0m` over a field | induction on n |
| C32 C33 | array fill loops | induction |
| C34 C35 C36 | loops over a linear ordered field | loop invariants |
| C37 C38 | state machines over arbitrary coefficient sequences | induction; witness |
| C39 C40 C52 C53 C69 | real/complex formulas | algebra, `nlinarith`, integrals |
| C41 C42 | unit records and string parser | algebra; parser induction on token list |
| C43 C44 C45 C71 | YAML reader/printer on character lists | invariant relating printer and parser group stack; grammar of nested blocks |
| C46 | option parser on string lists | induction over argv |
| C47 C48 C49 C50 C58 C59 | string/number utilities | induction |
| C51 | block streaming MD5 | streaming = fold over RFC padding; step function = RFC rounds; constants from interval arithmetic on the series of exp(i) |
| C56 C57 | loops | case analysis / extensionality |
| C60 | T-matrix tasks over a field | accumulations = quadrature sums of vector products of wave functions; PLU inverse solves T Q = -Rg Q |
| C61 C65 | Clebsch-Gordan recursion | the recursion, its normalisation and sign determine the coefficients; orthonormality by induction |
| C62 C63 | Bessel and Wigner arrays | recurrences = closed forms; derivative by `HasDerivAt`; the ratios of the first kind are solved exactly (Casorati determinant), and the error is bounded through the modulus `j_n^2+y_n^2` (polynomial with positive coefficients, real arguments) and a contraction (small complex arguments) |
| C64 C37 | sequence of the T-matrix tasks | induction over iterations |
| C66 C67 | scattering tasks | double sums over orders; optical theorem |
| C68 | shape distribution | derivative of the depolarisation factor; substitution |
| C70 | adaptive quadrature loop | loop invariant |
| C72 C73 | stand-alone `TMatrix` class: constructor, `compute_additional_elements`, `operator()` | the same specification as C60; rotations of the reference frame as matrices |
| C74 | the equations of C60/C72 for degrees of both signs (`Spec/Symmetry`) | reflection of the quadrature nodes at the equator maps Q to (-1)^{i+n+i'+n'} Q; the transition matrix is unique if Q is regular |
| C75 | `TMatrix::get_forward_scattering_matrix` (three overloads): factors `c`, direction cosines, matrices `B`, `AL`, `AP`, `C`, `R` | fields as vectors in space (`Spec/Frame`), rotation matrices; C66 for the amplitude matrix in the frame of the particle; azimuth independence at the poles |
| C76 | `get_scattering_matrix`, `get_extinction_matrix`, `get_reduced_extinction_matrix` | Stokes vectors; the extinction matrix through the differential equation of the coherent field |
| C77 | the two coefficients, `get_absorption_cross_section(s)`, average | sums over degrees of both signs; loop invariants for the arrays |
| C78 | `execute` of the two matrix resources, members as explicit state | the sum over the T-matrix from any start and any content of the arrays (linearity); frames as in C75 |
| C79 | the same, from an arbitrary state | extinction: every element assigned; scattering: invariant of the members, counterexample with a single-element T-matrix |
| C80 | product of the scheduler of C01-C05 with a shared memory and one program per worker; every read and write is a step | simulation: the memory is that of a sequential execution of the ended tasks, up to what the running tasks write; exchange of independent tasks |
| C81 | task bodies over "my objects", tied to the objects of a slot by renaming; arbitrary numbers of slots | simulation of the calculation with n slots by the one with a single slot, T-matrix after T-matrix, in an order that suits both; then C80 |
| C82 | as C81; the sequential program is written out in Spec/Plain | the plain program is an order of C80 for every number of slots |
| C83 | as C81 | slicing: tasks of other entries write nothing that the entry reads, or clean it up again |
| C84 | task bodies instantiated with the models of the `execute` functions | C83 reduces an entry to its own tasks; step by step through these with the contents of the tables, then C60, C37, C74, C57, C61, C66, C67, C53, C34 |
| C85 | function with real arithmetic | surface of revolution integrated in closed form (derivative of the primitive), both branches; isoperimetric inequality from the convexity of the exponential function |
| C86 | memory of an array as bytes, the pointer the code takes, the elements it reads | contiguous arrays of doubles: proved (partial); other arrays: witnesses |
| C87 | the loops of the methods over the stand-alone class of C76 and C77 | C76, C77 at every index; shapes after `squeeze` (partial), witnesses |
| C88 | the choice of distribution and the calls of the calculator | mean of cos² of the chosen density by integration; C38, C57, C72; witnesses |
| C89 | the loop over the angles and the sum over the orders | expansion in Legendre polynomials is exact for polynomials; the missing term as a witness |
| C90 | Python objects as type and memory; the checks and casts of the two callbacks | case distinction over the objects; witnesses |
| C91 | `init` of the alignment object, the choice by size and axis ratio, the averaging task | C39, C57, C88 for the distribution that is chosen; witnesses for larger orders |
| C92 | Wigner functions as the matrix of a rotation on homogeneous polynomials (`Spec/Rotation`), average as an integral | differential equation of the Wigner functions, uniqueness of its solution, so the Clebsch-Gordan series of their products from C65; Rodrigues' formula; then C57 |
| C93 | amplitude matrix of an oriented particle as the turned field, scattered and turned back (`Spec/Oriented`) | addition theorem for the vector angular functions from a generating function (`Proofs/VectorWave`), then C92; the amplitude matrix is linear in the T-matrix |
| C94 | mean over orientations of the quadratic quantities of the oriented particle (`Spec/Oriented.mean`) | code violates it; Jensen inequality for the scattered power, unitarity of the rotation matrices for the coefficients; witnesses: non-absorbing dipoles lying in a plane |
| C95 | integrals over the sphere, particles that do not amplify or absorb (`Spec/Sphere`) | orthogonality of the vector angular functions from the differential equation of the Legendre polynomials (`Proofs/WaveOrth`), Parseval, unitarity of the rotation matrices |
| C96 | the uniform distribution of directions (`Properties/Random`), ensembles of C57, C84, C93 | sums of the squares of the angular functions over the projections from the unitarity of the rotation matrices and the values at the pole; linearity in the coefficients |
| C97 | `stod`, `ostream << double` with six digits, `sscanf "%lf + %lfi"`, `split_value` (`Model/Decimal`); numbers are exact | grammar of literals as a separate type with its value (`Spec/Decimal`); the reader is shown to accept exactly the literals (longest match); rounding to six digits as a separate relation; position of the leading digit from bounds by powers of ten |
| C98 | `main`, `ParameterFile`, `get_timestamp` (`Model/Program`) on top of C43, C45, C46, C38, C54, C97; the terminal output is not modelled | each key is read once with its own default: chain of reads with the invariant of C45 on the dictionary; printed dictionary read back by C43; violation with the default wavelength |
| C99 | `get_table` (`Model/GetTable`): format units of the argument parser, objects, arrays (C86), the calculation of C84, the arrays of C20; log files are not modelled | the result objects are identified by positions, so that C20/C21 apply to the memory after any complete run (C84); violations by cases over the objects and by arithmetic modulo 2^32 |
| C100 | the coefficients of C84 with grids of all sizes | Gauss-Legendre rules converge for continuous functions (exactness for polynomials, positive weights, Weierstrass); the amplitude matrix is a finite sum of products of functions of the two angles; reciprocity by exchanging the sums; energy by Parseval's equation for each polarisation (C95), Jensen's inequality for ensembles |
| C101 | the T-matrix, the coefficients and the run of C84 for axis ratio 1 | products of the angular functions are polynomials that the rules integrate exactly, orthogonality makes the matrices diagonal; Wronskian and the growth of the energy flux inside the sphere (derivative from the Bessel equation) show that the denominators do not vanish and give the energy balance; sums over projections are sums over the coefficients |
| C102 | the classes of the Python module, their allocation, initialisation and deallocation, array arguments and results, `get_table`: reference counts as in the C API; a use of a destroyed object is undefined | invariant over every history: a count is the number of references of the program, of objects, and of nobody; per action, what nobody has afterwards; references go to older objects, so nothing is left when all are given up |
| C103 | `SingleShapeShapeDistribution`, `DraineHensleyShapeDistribution` with its arguments from Python, `evaluate`, `get_limits`, the weights of `ShapeAveragingTask` | positivity and continuity of the depolarisation factor and its derivative (`Proofs/ShapeMean`); exact rules converge for piecewise continuous functions; negations for arguments that are not refused |
| C104 | `get_memory_size` of every class with the arguments of the dry run, what every constructor allocates, the order of the dry run and of the creation | the list of created objects is a permutation of the list of accounted objects; element bytes per class; exact difference of the totals |
| C105 | `from_ascii_file` with `getline` and `>>`, the constructor of the dust properties, the three data files | induction over characters, columns and lines; kernel computation over the complete data files for order and signs, then C35 and C69 for all wavelengths |
| C106 | the step system of C01 with a clock: `tic`, `toc`, `qid` of the tasks (`qsched_gettask`, `qsched_done`), any time may pass at every step | invariant of the timed system on top of the invariant of C01-C04; disjoint intervals for the sums |
| C107 | the text written by the wrapper's `register_*`, `link_*`, `Task::print`, `print_type_dict`, together with the calls of QuickSched | induction over the calls; printed numbers are read back (C47); C08, C12, C16 for the content of the scheduler |
| C108 | `qsched_prepare` with `int` costs and weights, measured costs of `qsched_done`, the cost the wrapper registers | the stored weights equal those of C07 as long as these fit; chains are bounded by the number of tasks and by the duration of the run (C106) |
| C109 | the typed functions of `CommandLineParser`, the texts of `print_usage` and `print_description` | the dictionary of C46 followed by the conversions of C47, C48 and C97 and their round trips |
| C110 | `tools/plot_taskgraph.py` as a function from the graph log (C107) to nodes and arrows | the log is read line by line (induction over the calls), the lists of arrows are sets without duplicates (induction over the links) |
| C111 | `random_double` and `random_int` as functions of the value of `rand` and of the rounding | bounds from monotone rounding; the values of `rand` that give one result are an interval whose ends are counted |
| C112 | `tools/plot_tasks.py` as a function from the two logs (C107) to bars, legend and limits | reading by induction over the lines; disjointness and load from the recorded times of every execution (C106) |
| C113 | scattering by spheres: the T-matrix of C101 in the amplitude matrices of C67, C75, C84 | a multiple of the identity in each degree is not changed by rotations (C93), so the frame may be turned until the light comes along the axis, where only two projections contribute |
| C114 | small spheres: limits of the series of C101 and C113 when the size parameter tends to zero, for the tables of C84 | the leading terms of the Riccati-Bessel functions follow from the three-term recurrence and the bound of C62; the electric dipole is the only term of third order; angular functions are bounded, so that the limit is uniform in the direction |
| C115 | the series of C101 and C113 for orders that tend to infinity, for the tables of C84 and the criterion by which the code stops | the Riccati-Bessel functions relative to their leading order solve perturbed recurrences of which the solutions converge; the coefficients decrease faster than any power, each much larger than all later ones together, so that the relative differences tend to zero without becoming zero |
| C116 | the series of C113 for orders that tend to infinity, for the tables of C84 | Legendre polynomials are at most 1 on the interval (an energy function of the Legendre equation is monotone), so that the angular functions grow like the square of the order; with the summable coefficients of C115 the series converge uniformly (M-test) |
| C117 | two calculations as in C84 with lengths that differ by a factor | the size parameters at the surface are the same and both factors of the surface integrals are divided by the square of the factor, which cancels in the equations for the T-matrix; amplitudes are proportional to the wavelength; the entries are determined (C84), and Stokes vectors span all vectors |
| C118 | entries as in C84 | the T-matrix of a grain with a mirror plane (C100), and its average, has elements for which the degrees and the types add up to an even number only; the angular functions of the mirrored direction are those of the direction with the signs of the reflected Wigner functions, so that the amplitudes which change the polarisation change their sign |
| C119 | entries as in C84 | the elements of the T-matrix for negative degrees are those for positive degrees up to a sign (C74), also after the averages over the orientations; turning the sum over the degrees around shows that the amplitudes which change the polarisation are odd in the azimuth |
| C120 | entries as in C84 | at the poles only the angular functions of degree one and minus one are different from zero, and the derivative is the other function up to a sign, so that the amplitudes of the two polarisations in the forward direction are the same |
| C121 | entries as in C84 | what is subtracted is a sum of squares of amplitudes with weights that are not negative; the T-matrices behind the two entries are the same (C84) |

A property that the code does not have is kept with its full statement; the violation is a theorem with a concrete
witness, and the part that holds is a theorem with the suffix `_partial` (see `MANIFEST.json`).
