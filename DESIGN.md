# DESIGN — a Lean 4 model of IhmeGroup/DG-MPI

## 1. Layout

* `lean/Verif/Model/*.lean` – the model: total functions, each with a comment citing the file and lines of `/repo` it models.
* `lean/Verif/Lemmas/*.lean` – helper lemmas.
* `lean/Verif/Props/*.lean` – the property theorems (`C01_…`, …), their small specifications, and `example`s showing the hypotheses are met by concrete non-trivial data.
* `seeded/LOG.jsonl` – mutation log (model edits that imitate bugs, and which theorems they break).
* `MANIFEST.json` – property → theorems.

## 2. Modelling conventions

* Loops become structural recursion or folds in the order of the C++ loop; arrays (`Kokkos::View`, `std::vector`) become functions or lists, and writes become function update / list `set`.
* Undefined behaviour (out-of-bounds access, use of an uninitialised value, an assertion failure) is a distinct outcome (`none` / `Except` / explicit `ub`), not silently totalised; preconditions appear as hypotheses.
* `rtype` (double): the definitions of the mesh, exchange, basis, quadrature, linear algebra, setup and solver models use only the *operations* of the program (`Zero`, `One`, `Add`, `Sub`, `Mul`, `Neg`, `Div`, casts of integers, `DecLit` for decimal literals), in the order of the program.  C80 proves things about them without any law; the theorems about values add the hypothesis that the numbers are exact (`ℝ`, or an arbitrary field / linearly ordered field).  The physics is over `ℝ`.  Rounding in detail is modelled where it decides how many steps are taken and what the clock reads (`Model/Double`, C72). `unsigned`/`int` are `ℕ`/`ℤ`; wrap-around is only modelled where a property is about it (the sentinel `UINT_MAX`).
* Two levels for the Kokkos kernels of the time loop.  `Model/Solver` gives each kernel a sequential meaning (with an arbitrary order for the flux scatter).  `Model/Device`, `Model/Kernels` and `Model/DeviceRun` give the same kernels as threads that do single loads and stores on one shared memory, with team barriers; C69 proves that every interleaving is race free, ends and has one result, and C70 that the whole run at this level equals the run at the first level.  Kernels of the *setup* have a sequential model (`Model/Mass`, `Model/Setup`) and one at the level of threads: `Model/SetupKernels` (C75) and, for the normals, `Model/NormalKernels` (which races, C69).  The same for the kernels of the post-processor: `Model/Post`, `Model/Volume` and `Model/PostKernels` (C79).
* External libraries are parameters: METIS is an arbitrary assignment of elements to parts, MPI is a FIFO-per-(source,tag) message store with eager sends, HDF5 is a store of named arrays, `unordered_set` iteration order is an arbitrary duplicate-free enumeration.

## 3. Plan per property

| id | what is modelled | how it is proved |
|----|------------------|------------------|
| C01–C07 | `Mesh::partition` after METIS: counting passes, storing passes, lookups | list induction over the element / face loops; METIS result and hash order universally quantified |
| C08 | pack / transfer / unpack of `communicate_face_solution` over all ranks | per-face case analysis from C07 |
| C09 | small-step semantics of all ranks (sends then receives then barrier) | invariant over arbitrary schedules; progress + confluence |
| C10, C11 | `read_mesh` array reading and reverse maps, with UB on overflow | loop invariants; negation witness for a self-periodic element |
| C12 | constructor's choice of `num_partitions`, and accesses indexed by rank | decision logic; negation witness |
| C13, C14, C15, C57 | `get_points_on_face_*`, `get_face_pts_order_wrt_orient0_*` | closed form of the running-index loops, then permutation/geometry algebra |
| C16, C17 | face node tables, normals | index arithmetic; polynomial identities |
| C18–C22 | `numerics/basis/tools.cpp` | Mathlib Lagrange interpolation / polynomial derivative |
| C23–C26 | tables as the list of writes performed on a zero-initialised array | kernel evaluation over the complete finite table, lifted to all polynomials by linearity |
| C27, C28 | `math/linear_algebra.cpp` | `Matrix` algebra, `field_simp`/`ring` |
| C29, C30 | mass matrix and L2 projection | matrix algebra |
| C31–C34 | Euler fluxes over `ℝ` | algebra, order reasoning on the wave speeds |
| C35 | dispatch switches | case analysis |
| C36–C39 | residual assembly on an abstract mesh | sums over faces and slots |
| C40, C41 | steppers and the time loop | algebra, induction over steps |
| C42–C48 | HDF5 wrapper layout logic, reader serialisation | lists of per-rank blocks, prefix sums |
| C49 | `get_error` | sums; negation witnesses for odd order and un-normalised runs |
| C50–C55 | enums, utils, size tables | list/string induction |
| C56 | volumes | sums over partition |
| C57 | normals of a face as seen from its two sides / two ranks | orientation tables + polynomial identities; counterexample for twisted hexahedron faces |
| C58 | Jacobian determinants and quadrature weights of the setup | polynomial algebra over the tables |
| C59, C60 | the time loop on all ranks (`solve`, steppers, residual, exchange) as a message passing program | simulation of the serial scheme by every rank; protocol theorem C09 |
| C61, C63 | setup of quadrilateral / hexahedral runs from mesh to coefficients, composed with C60 | agreement of the ranks' tables with those of a serial setup; textbook weak form as specification (`Spec/QuadDG`, `Spec/HexDG`) |
| C62, C66 | uniform flow on those runs | divergence theorem on bilinear/trilinear maps, bounds on table errors; counterexample mesh |
| C64, C65 | conservation and positivity for Euler runs | telescoping over sides; explicit time step bound for order 0 |
| C67, C68 | the executables: input table → run → file → converter; post-processor | composition of C10–C66, C42–C47 |
| C69 | every kernel of the time loop as threads with single loads/stores and barriers | disjoint footprints per barrier interval ⇒ confluence; schedules as counterexamples for the normals kernel; `normalsLaunch`, the launch of that kernel on a rank, against the normals of the setup (`C69_normals_setup`) |
| C71 | ranks that print between barriers | invariant on phases, one output per phase |
| C72 | doubles as numbers `m 2^e`, rounding as any choice of a nearest one; quotient, truncation, clock additions | order of doubles and integers, relative error of a rounding; the literals 0.3 and 0.1 computed exactly |
| C73 | the executable of C67 on two descriptions of the same flow; `Spec/Frame`: rotation, shift, unit factors, renumbering and their action on points and states | fluxes, HLLC wave speeds, Jacobians, normals and mass matrices transform linearly (orthogonality, determinant 1); faces summed in any order; induction over stages and steps; transport of admissibility; then C67 twice |
| C74 | the executable of C67 on two mesh files that differ in which element of a face comes first; `Spec/Flip` | both fluxes change sign when states and normal are exchanged (HLLC: C32, where its waves do not cross); normals of matched faces are opposite; term-by-term comparison of the face sums; induction over stages and steps; then C67 twice |
| C75 | the three kernels of the setup of the elements as threads; `Spec/Device.Settles` (races only between equal stores of one team) | per barrier interval: what each thread writes, that nobody else reads it; confluence up to equal stores; the memory after each interval compared with the sequential functions; the lemmas use no law of arithmetic (`C75_setup_bits`), the volume over a field is the recombined sum |
| C76 | extents of all views and sizes of all scratch requests (`Model/Extents`) next to the thread-level kernels; `Spec/Bounds` | per kernel: every load and store of every thread is inside, whatever values were loaded; the bump allocator by induction on the list of views |
| C77 | the exchange with buffers, their release, and messages that stay in the buffer until MPI copies them (`Model/LateSend`) | simulation with the eager protocol of C09 in both directions; the barrier empties the channels before the release |
| C78 | `Renumbered` meshes and `RenumberedFile`s as a specification (`Spec/Renumber`); the model of C67/C68 unchanged | the textbook scheme commutes with renumbering (face sums are invariant under permutation); with C67 for both meshes the files are related; sums over elements for the error |
| C79 | the kernels of the post-processor as threads (`Model/PostKernels`), each with its own team size and distribution of loops | phases of a team as in C75; partial sums of `parallel_reduce` recombined by exchanging sums; the totals equal those of the sequential model of C68, with C68 the whole workflow |
| C80 | the models of setup and solver over any type with the operations of the program (no laws); `Spec/Bits`: a launch, a mesh of the shape of the basis, shared normals | every slot of the flux array is written by at most one face point, so its final value is one expression in the traces (`SlotVal`), independent of the order; sums over slots, basis functions and points are loops in a fixed order; congruence of the LU solver; an invariant over the rounds of any interleaving says that the state of a rank is the restriction of one whole-mesh state computed by the same operations; thread level: the simulation of C70 and the setup kernels of C75/C69 use no law either (only `0 ≠ 1`), so `C80_threads`, `C80_threads_case` carry the statement down to single loads and stores |
| C81 | the time loop of C40 and the parallel run of C60 over ℝ; `Spec/TimeOrder`: exact solutions, smoothness near them, order of the methods | expansion of the four stages along the exact solution with remainders that are uniform in the start time (`IsBigO` along step sizes going to zero): the defects of the stages cancel in the weighted sum, Simpson's rule is left; Lipschitz stability in a tube around the solution; discrete Grönwall.  Non-vacuity: for linear fluxes the exact solution is the matrix exponential |
| C82 | the scheme of C64 for the Euler equations with both fluxes, the executable of C67; `Spec/Wellposed`: regular states (admissible, HLLC waves in order) | calculus of locally Lipschitz functions (`LipAt`); the Lax–Friedrichs flux is one, the HLLC flux is rewritten as a sum over its waves with `min(s, 0)`, which needs the jump condition over the contact; regular states are open, so Picard–Lindelöf gives a solution and the tube argument of C81 first order convergence with all stages inside of the regular states; uniqueness because both solutions are limits of the same runs; then C67.  A jump of HLLC where its waves are not in order |
| C83 | the solver of C80 over the numbers of an arithmetic `Arith` (`Spec/Rounding`: rounded operations, overflow, NaN), with the flux routines operation by operation (`Model/FluxOps`); the ranks have their own rounded geometry | each operation of the residual is followed along a sequence of arithmetics with roundoff going to zero (`Tr`: finite, error `O(u)`); roots near zero through backward error bounds; where rounding flips a switch of HLLC or of the maximum, both branches agree up to `O(u)` (continuity of the flux at regular states, C82); a compactness argument turns the sequences into uniform constants; then stability of the steppers (C81) and the restriction invariant of C80 with one geometry per rank.  Over ℝ the routines are those of `Model/Physics` (`C83_same_routines`).  Simplifications: each operation is rounded by itself (no fused multiply-add, no reassociation), underflow errors up to `u²`; the constants are not computed |
| C84 | the setup of C61/C63 (`buildDisc`, `buildGeom`, `initState`) and the run of C83 over an arithmetic `Arith`; the mesh file with rounded coordinates (`MeshRead`), the initial condition as a routine (`Computes`) | every operation of the setup is followed with the calculus of C83 (`Tr`): quadrature tables and basis (`Lemmas/RoundTables`), Jacobian, LU inversion with pivots that stay away from zero, projection (`RoundElem`), then one rank (`RoundSetup`), all ranks (`RoundRank`), comparison with the exact setup (`RoundExact`) and C83 (`RoundWorld`, `RoundCase`).  Initial conditions: uniform and the isentropic vortex in 2D and 3D, operation by operation (`Fl.vortex2`, `Fl.vortex3`) with library functions exp and pow of error up to `4u` (`Lemmas/RoundVortex`, `Props/RoundingVortex`); `M_PI` is a machine number within `4u` of π.  Threads (`Props/RoundingThreads`, `ThreadLaunch`): a run of the threads is a run of the sequential loops with the same numbers whatever geometry each rank has computed (no assumption that the two ranks of a face have equal normals) |
| C85 | the executable of C67 over an arithmetic `Arith`: `Model/MachineMain` (`Fl.readJob`: input keys with default literals, the quotient `tend / dt` converted to `int`, the zero-initialised IC data; `Fl.readyRank`; `Fl.jobProg`; `Fl.jobFile`); `Spec/MachineMain`: the input file as read (`DeckRead`), the mesh file as read (`MeshGiven`), the conversion to `int` (`Truncates`), the outcome (`ProgramOutcome`) | the quotient has a relative error of `u`, so its integer part is off by at most one and only within `C u` of a multiple of the step (`gap_bound`); the clock is a sum of rounded additions (`clock_sum`, `machine_clock`); setup and run by C84 (`machine_solver`, `machine_steps`), the file by C46–C48 over any numbers; a Lipschitz bound of the solution in time turns the difference of clock and final time into `C dt` (`solution_slow`).  Lemmas: `RoundMain`, `RoundProgram`.  Simplification: the conversion of decimal text to numbers by the TOML library is a hypothesis (`κ` roundoffs); a gas constant of one must be read exactly because the code compares it with `!=` |
| C86 | the post-processor of C68 over an arithmetic `Arith`: `Model/MachinePost` (`Fl.readPost`, `Fl.postRank`, `Fl.postPrint`: powers by `pow` with integer and with rounded exponent `1. / 2`, sums in the tree orders `Fl.Reduction` of `parallel_reduce` and `MPI_Allreduce`); `Spec/MachinePost`: orders of the sums (`PostSumsOK`), contents of a file (`FileHolds`), the outcome (`PostOutcome`); the exact distance is `quadDist`/`hexDist` of C68 | all summands are nonnegative, so each sum is a backward-stable sum of perturbed squares whatever its order (`Lemmas/RoundSums`: `Back`, `reduce_back`), the root is Lipschitz as a weighted norm although the square root is not (`wnorm_lip`); `Lemmas/RoundPost` follows the program through setup and sums; after a run the file holds coefficients near those of C85 and the distance is Lipschitz in them (`run_post`) |
| C87 | the whole executable in an arithmetic `Arith`, ranks × threads: `Model/MachineThreads` (`threadMesh`, `JobSetup` = the setup kernels of `Model/SetupKernels` executed by threads, `JobKernels`, `threadProg` = `Model/DeviceLaunch` with the numbers of the input file, `threadFile`); `Spec/MachineProgram`: `ThreadOutcome`. Proof: the threads of the setup leave the views of the sequential calculation (`SetupRun.holdsSetup`, no law of arithmetic used) and every run of the threads of the time loop holds, bit by bit, what a run of the sequential loops holds (`threads_sequential`), so the error bounds and the file of C85 carry over; freedom from failure and termination by `C70_run_completes`; `C87_threads_post_*` feed the file to the post-processor of C86 |
| C88 | the class `HDF5File` as a state machine: `Model/Handles` (objects with a file handle, `shared_ptr`s to pairs of handles with the deleters, table of open handles of the library, files on disk; `step` = one call, `run` = any sequence of calls), and the sequences of the four users of the class (`readMeshOps`, `readCoefficientsOps`, `writerOps`, `converterOps`); `Spec/Handles`: `Holds`, `FileOpen`, `PartOpen`, `Refers`, `Overwritten`, `Clean`. Proof: one invariant (`InvB`) kept by every call, by induction on the history; the programs by composing pieces that leave the state as it was (`Quiet`) |
| C89 | `Writer::write` on interleaved ranks, call by call: `Model/Interrupt` (`prog` = the 101 calls of a rank with their MPI collectives, `effect` on a file some of whose objects do not exist yet, `Step`, `Reachable` = the points where the program can be killed; `restart` = `read_in_coefficients` on such a file); `Spec/Interrupt`: `Lost` (a crash may besides lose any objects), `Finished`, `ofSolFile`. Proof: everything but the data is a function of the head rank's position (`inv_erase`); the data are the blocks of the ranks that have passed their write, and the head rank's gather comes after all of them (`inv_data`); the file of a completed run is that of `writeFile` (C42, C45); the converter on such a file is `convertFile` in `Model/Refusal` (`C89_converter`, `C89_converter_alone`) |
| C90 | the calls of the readers, rank by rank: `Model/Refusal` (`Rd`: an object opened by all ranks, by the head rank alone, or a broadcast/scatter from it; `restartCalls`, `readerCalls`, `meshCalls`, `convertCalls`; `RStep`: a rank that does not find what it asks for exits and takes no part in later collectives); `Spec/Refusal`: `AllFinish`, `AllExit`, `Hangs` over all runs. Proof: invariants of the positions (nobody passes a broadcast before the head rank has come to it, nobody passes the first bad call), the measure of the remaining calls, progress of the rank that is furthest behind (`finish_of_ok`, `exit_of_all`, `hang_of_head`, and as a function of the list of calls `finish_iff`, `endOf`); for interrupted writing the state of each object as a function of the head rank's position (`header`) |
| C91 | the views in raw arrays as objects with constructor and destructor: `Model/Views` (`step` = one operation of Kokkos on a `View`, undefined if the object does not exist; `constructMesh`, `exchange` with `communicate`, `finalizeMesh` operation by operation; histories of calls; the calls of the two executables); `Spec/Views`: `held`, `FinalizedLast`. Proof: each loop over the neighbours gives the table of views in closed form (`Lemmas/Views`), induction on the history; for the peak, an object that exists was there before or is constructed by the call under way (`exists_of_run`), and the variables of the loop bodies only share memory that an array of the mesh or of the exchange holds (`Shared`, a count of those variables along the operations); the bound is met because no two arrays share memory (`Own`) |
| C70 | all ranks × all threads | simulation between the thread level program and the program of C60 |

Nothing in the list is inexpressible; the parts left out are stated per property in section 5 and in
the notes of `MANIFEST.json`.  Where a property is false of the code, the theorem list of the property
contains both what does hold and a theorem that exhibits the failure.

## 4. Trusted base

* **Lean 4.33.0's kernel** and the statement-level reading of the theorems.  No `native_decide`,
  no `bv_decide`, no `sorry`, no own axioms.  Finite tables (quadrature constants, enumerator tables) are
  evaluated by the kernel (`decide +kernel`, `rfl`, `norm_num`), and cover the complete table, not a sample.
* **Axioms.** Every theorem in `MANIFEST.json` depends on at most `propext`, `Classical.choice` and
  `Quot.sound` (printed by `vcheck`).
* **The model is hand-written.**  That the Lean definitions say what the C++ says is not proved; each
  definition cites the lines it models, and deviations are written in its comment.  The tables in
  `Model/GaussTables.lean` are generated from `numerics/nodes.cpp` by `tools/gen_gauss.py`
  (literal by literal, as exact decimals).
* **External software is assumed to behave as specified**: METIS (any function from elements to parts is
  allowed, except that its values are below the requested number of parts), MPI (ordered, reliable
  delivery per (source, destination, tag); sends that copy at once in `Model/Network`, at any
  time in `Model/LateSend`; `Allreduce` sums in rank order), HDF5 (a store of named datasets with
  hyperslab writes), Kokkos (outside of `Model/Device` a `parallel_for` whose iterations write disjoint
  locations has its sequential meaning; in `Model/Device` kernels are interleaved threads on a sequentially
  consistent memory, a fence separates kernels, and the team functions of KokkosBatched distribute their
  entries over the threads of a team as in its source; in `Model/SetupKernels`, `TeamLU`, whose source is not at hand, and
  `TeamSolveLU` are the work of one thread between barriers, and `parallel_reduce` (also over a range, in `Model/PostKernels`) combines per-thread sums after
  a barrier; in `Model/Extents` team scratch memory is handed out by moving an aligned pointer, and `shmem_size` is at least the
  bytes of the view plus the alignment less one), toml11 (a finite map from keys to typed values), KokkosBatched `SerialLU`/`Trsm`
  kernels (specified by the no-pivoting LU algorithm they implement), libc `printf`/`std::to_string`.  In `Model/Handles` the HDF5
  library numbers its handles consecutively, `H5Fclose` of a file opened with the MPI driver fails while objects opened through it
  are open (close degree `SEMI`; other drivers: `WEAK`), and `H5Fcreate` fails for a file that is open with the same driver; `shared_ptr`
  calls its deleter when the last copy goes.  In `Model/Interrupt` the effects of calls reach the file in the order of the calls, objects
  with the head rank's call, zeros being in what is created and not yet written; `MPI_Allreduce` waits for all ranks, `MPI_Scan`
  for the lower ones, `MPI_Gather` on the head rank.  In `Model/Refusal` a rank that
  called `std::exit` takes no part in later collectives, and what the launcher does to the others is not shown; `MPI_Bcast` and `MPI_Scatter`
  wait for the head rank and, at the library's choice, for all ranks.
* **Numbers.**  Except in C80 and C83–C87, `rtype` is an exact field (ℝ for the physics, any field or linearly ordered field
  elsewhere).  In C83–C87 it is any arithmetic `Arith` whose operations have a relative error up to a unit roundoff inside of a
  range and may give anything (a NaN, an infinity) outside of it; that range is never left is part of what is proved.  In C80 (and in C69 and the parts of C70 and C75 it rests on) it is any type with operations; trusted there: the compiler and the KokkosBatched kernels
  compute an entry of a product by the same sequence of operations whatever the rank and the team (the model sums
  in index order).  Overflow of `int`/`unsigned` is outside the model, except
  where a property is about it (`UINT_MAX` as sentinel, the `(int)`/`unsigned` conversions of the
  number of time steps).

## 5. What is modelled, file by file

| source (`/repo/src`) | Lean module | left out |
|---|---|---|
| `mesh/mesh.cpp` `partition`, `read_mesh`, constructor; `mesh.h` accessors | `Model/Mesh`, `Model/ReadMesh` | the METIS call itself (its result is a parameter), boundary-condition names, device copies |
| `mesh/tools.cpp` | `Model/Volume`, `Model/Normals` | – |
| `memory/memory_network.cpp` 49-175 (allreduce, face exchange) | `Model/Network`, `Model/LateSend`, `Model/Volume`, `Model/Kernels`, `Model/DeviceRun`, `Model/Views` | constructors, `MPI_Init`/`Finalize` |
| `solver/base.cpp` 383, `stepper.cpp` 50, 98, 125, in double precision | `Model/Double` | overflow; the single precision build; evaluation in extended precision |
| `memory/memory_network.cpp` 177-453 (printing) | `Model/Print` | number formatting; what `mpirun` does with the output |
| `numerics/basis/shape.cpp`, `shape.h` | `Model/Shape`, `Model/Normals` | point and triangle shapes (not usable: no basis) |
| `numerics/basis/tools.cpp`, `basis.cpp`, `basis.h` | `Model/Basis`, `Model/Mass`, `Model/Enums` | – |
| `numerics/nodes.cpp`, `quadrature/*` | `Model/GaussTables`, `Model/Quadrature` | Gauss–Lobatto tables (commented out, `nodes.cpp` 505 ff.) |
| `numerics/numerics_data.cpp` | `Model/Enums` | – |
| `math/linear_algebra.{h,cpp}` | `Model/LinAlg`; the products used in the time loop at thread level in `Model/Kernels`, the functions of the setup in `Model/SetupKernels` | the inside of `TeamLU`, `TeamSolveLU` at thread level |
| `solver/helpers.cpp`, `solver/tools.cpp`, `solver/base.cpp`, `flux_functors_impl.h` | `Model/Mass`, `Model/Flux`, `Model/Solver`, `Model/Setup`; at thread level `Model/Kernels`, `Model/DeviceRun`, `Model/SetupKernels`, `Model/NormalKernels`, `Model/DeviceLaunch`; extents and scratch sizes in `Model/Extents` | timers, prints |
| `numerics/timestepping/*` | `Model/Solver`, `Model/Enums` | – |
| `physics/base/*`, `physics/euler/functions.*`, `euler.h` | `Model/Physics`, `Model/Enums`; for any arithmetic `Model/FluxOps` | Navier–Stokes gradients (no code in the repository) |
| `physics/euler/euler.cpp` | – | 862 lines of commented-out or uncompiled legacy code |
| `common/enums.h` | `Model/Enums` | – |
| `utils/utils.{h,cpp}` | `Model/Utils` | `Timer` |
| `io/HDF5Wrapper.h`, `writer.cpp`, `reader.h` | `Model/IO`; the life of handles in `Model/Handles`; interleaved and interrupted writing in `Model/Interrupt`; reading rank by rank in `Model/Refusal` | HDF5 property lists; in `Model/Handles` the data; in `Model/Interrupt` the buffers of the library |
| `io/input_info.*`, `io_params.*` | – | not compiled (see `io/CMakeLists.txt`) |
| `exec/main.cpp`, `post/main.cpp`, `converter/main.cpp` | `Model/Main` (for any arithmetic `Model/MachineMain`, with threads `Model/MachineThreads`), `Model/Post` (for any arithmetic `Model/MachinePost`), `Model/IO`; at thread level `Model/PostKernels` | prints, timers |

Specifications that do not depend on the model: `Spec/Mesh` (what a valid mesh and its faces are), `Spec/Euler`
(fluxes, exact solutions), `Spec/Solver` (the serial scheme), `Spec/QuadDG`, `Spec/HexDG`, `Spec/EulerDG` (the weak form
of the discontinuous Galerkin scheme on bilinear / trilinear elements), `Spec/IO` (files), `Spec/Main` (what an
input file asks for), `Spec/Device` (race freedom, termination, unique result of a kernel), `Spec/PostKernels`, `Spec/Bits` (launches of a case, C80), `Spec/TimeOrder` (exact solutions in time, order), `Spec/Wellposed` (regular states, C82), `Spec/Rounding` (computer arithmetic, C83), `Spec/MachineCase` (launch on a computer, C84), `Spec/MachineThreads` (the same with threads), `Spec/MachineMain` (input files and outcome of the executable on a computer, C85), `Spec/MachinePost` (the same for the post-processor, C86), `Spec/MachineProgram` (the executable down to its threads, C87), `Spec/Handles` (who holds which handle, C88), `Spec/Interrupt` (what a crash leaves, C89), `Spec/Refusal` (who ends and who waits, C90), `Spec/Bounds` (staying inside of
allocated memory), `Spec/Frame`, `Spec/Flip`, `Spec/Renumber` (meshes that differ by a change of frame, the order of the sides of faces, or numbers).

## 6. Defects of the code found while modelling

Each is either a theorem (name given) or follows from the cited lines.

1. `[Mesh] npartitions`: the constructor tests the *top-level* table for the key but reads it from `[Mesh]`,
   so the value is ignored when it is where it should be and throws when it is not (`C12_*`).
2. With fewer parts than ranks the extra ranks index past the per-part arrays; a debug print at the end of
   `partition` reads three faces whatever their number (`C12_debug_print_ub_iff`,
   `C12_fewer_parts_than_ranks_is_ub`).
3. A face joining an element to itself (periodic mesh one element wide) advances the reverse-map counter
   by two; more than six faces of an element overflow the reverse map (`C10_self_face_breaks`, `C10_out_of_bounds_iff`).
4. Gauss–Legendre table for orders 36 and 37: `pts(16)` is assigned twice and `pts(15)` never (`nodes.cpp` 343);
   the rule is not exact even for linear polynomials (`C23_order_36_37_fails`).
5. Solution orders ≥ 12 ask for quadrature orders beyond the tables and leave the rule unset (`C25_*`).
6. Hexahedron normals are evaluated at the transposed face point (`C17_hex_normal_misplaced`); only harmless
   for faces on which the normal is constant.  Face normals are evaluated at orientation-0 points, so for
   curved faces the two ranks of a ghost face use different normals (`C57_quad_curved_normals_differ`);
   the executable always uses geometry order 1.
7. `invA` for sizes ≥ 4 does not clear its workspace: computing the inverse mass matrices twice
   returns garbage (`C29_second_call`); the LU factorisation does not pivot (`C27_no_pivoting`).
8. Legendre bases of order > 7 leave values unset (`C21_above_seven_unset`).  The segment Legendre basis is
   rejected by `get_num_bases`; Gauss–Lobatto/Gauss–Legendre nodal and triangle bases are accepted by the
   parser but leave function pointers null (`C55_*`).
9. Odd error orders cancel (`C49_odd_order_cancels`) and un-normalised errors are divided by the number of
   ranks (`C49_unnormalised_depends_on_ranks`).
10. HLLC: the wave-speed estimates can give `sL ≥ 0` and `sR ≤ 0` simultaneously, where the flux is not
    antisymmetric (`C32_antisymmetry_fails`) and jumps when the states vary continuously (`C82_hllc_jump`).
11. A vortex initial condition in 3D ignores time (`C34_3d_ignores_time`, `C34_3d_not_solution`); in 2D an assertion
    requires the gas constant 1, which is not the default (`C34_gas_constant`).
12. Unknown/unsupported initial conditions and the Navier–Stokes flux are silently ignored: outputs are left unset
    (`C35_unsupported_not_rejected`, `C35_navier_stokes_not_rejected`); a uniform state reads past a short
    `InitialCondition.data` (`C35_uniform_too_short`).
13. Negative final times run about 2^32 steps (`C41_negative_end_wraps`); `Stepper.start` is never read.
14. A restarted solution keeps time 0 (`C46_time_is_not_restored`).
15. Writing one scalar per rank in a dataset of rank 0 gathers from an empty array (`C42_scalar_blocks_ub`).
16. A solution written from a column-major (GPU) layout is scrambled by the converter
    (`C47_column_major_is_scrambled`); nodes used by no element are lost (`C47_unused_node_is_lost`).
17. `-input` as the last argument constructs a `std::string` from a null pointer (`C51_input_file`);
    `check_input_file` is never called by the executable and misses required keys (`C54_not_covering`).
18. A face between an element and a *boundary* gets no flux at all: there is no boundary flux code.
19. Quadrature orders of the mass matrices and of the projection of the initial condition differ for p = 0
    (`C30_order_zero`).
20. `Reader` with the wrong number of ranks stops the head rank only; the others block in `Bcast`.
    (In the code the other ranks do not even block: they continue.)
21. The kernel for the face normals races when a team has more than one thread (`C69_quad_normals_race`,
    `C69_hex_normals_race`): no team barrier between the `TeamGemm` and the reads of its result; for hexahedra
    also none between the cross product, stored by all threads, and `TeamScale`.
22. Normals of a twisted hexahedron face differ between the two ranks that share it, so the parallel result depends
    on the partition and conservation is lost (`C57_*`); C63 needs cuts along flat faces.
23. For p ≥ 1 a uniform flow is not preserved on planar hexahedron faces that are not parallelograms, because of the
    exchanged face coordinates in the normals (`C66`, counterexample `trapMesh`).
24. No flux passes through boundary sides, so a uniform flow is not preserved next to a boundary (`C62`, `C66`).
25. Equal orientations on both sides of a quadrilateral side combine mirrored points (`C61`); unknown face
    orientations leave a stale order array; collapsed sides make the numerical fluxes divide by zero.
26. Order 0 uses rules of different order for mass matrix and projection, so a uniform state is scaled by a factor
    near 1 (`C62`).
27. Hexahedra of order ≥ 6 exceed `N_BASIS_MAX` (`C67`).
28. The post-processor compares with the exact solution at time 0 and needs the partitioner to repeat its answer (`C68`).
29. `det` leaves its output unset for sizes > 3; `HDF5File`'s move assignment leaks the old handle (`C88_move_assignment_leaks`) and `EXCL` opens with
    `TRUNC` (`C88_modes`); the converter empties its input when the output has the same name (`C88_convert_onto_itself`); a file whose writing was stopped between the
    last two calls is accepted by a restart, which then reads outside of an empty array (`C89_gap`), while the converter divides by zero or, on one rank, writes a file without coefficients
    (`C89_converter`, `C89_converter_alone`); a reader that misses an object on the head rank ends there alone and leaves the other
    ranks in a broadcast (`C90_restart_no_counts`, `C90_convert_wrong_ranks`, `C90_read_mesh`, `C90_write`); the blocks of `Uq_local`/`Uq_ghost` are allocated with `new[]` and never deleted, two for every residual (`C91_blocks`; the arrays themselves are released, `C91_held`); `Mesh::finalize` of a mesh and of a copy of it destructs twice (`C91_defined`; the executables do not do it, `C91_executables`); on a GPU the host mirror passed to
    `MPI_Isend` is freed at the end of the loop iteration (`C77_mirror_buffers_fault`); the requests of `MPI_Isend` are never
    completed (harmless for the data, `C77_late_sends_safe`, but their handles leak).
30. `exec/main.cpp` silently does nothing for dimensions other than 2 and 3; `examples/quad_1x1` asks for the stepper
    "SSPRK3", which the parser rejects; the "Gaussian" initial condition is not a Gaussian and "Sphere" ignores its data.
31. The number of steps is the truncated quotient of two rounded numbers (base.cpp 383): `tfinal = 0.3` with `dt = 0.1`
    takes two steps and the run ends at 0.2 (C72_three_tenths_takes_two_steps).
32. `Math::identity` is called by every thread of a team without being distributed, and without a barrier before `TeamLU`
    (`C75_identity_race`): harmless, because all threads store the same number (`C75_inverse_mass`).
33. On a cut face the rank of the left element takes the normals from the nodes of the left element and the rank of the
    right element from those of the right one with the opposite sign (helpers.cpp 425-443).  In exact arithmetic they
    are equal (C17, C57); in floating point nothing makes them the same bits (the sums over the nodes run in different
    orders for geometric order ≥ 2, and `-1 * 0` is `-0`), so the two elements may see fluxes that differ in the last
    bits and runs on different numbers of ranks need not be bitwise equal.  This is the only obstacle (C80).
