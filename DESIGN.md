# Formal model of DNDSR in Lean 4: design

Source: `/repo` (harryzhou2000/DNDSR, pinned commit), read as text only.
Lean project: `/verif/lean` (Lean 4.33.0, Mathlib modules imported one at a time).

## Layout

* `Verif/Model/*.lean` – executable (or, over the reals, plainly written) definitions transcribed
  function by function from the C++; every definition cites file and lines.
* `Verif/Spec/*.lean` – small specifications that do not use the model's helpers.
* `Verif/Proof/*.lean` – helper lemmas.
* `Verif/Props/*.lean` – the property theorems (names listed in `MANIFEST.json`), each with an
  `example` that a concrete case meets its hypotheses.

## Modelling conventions

* An abort (`DNDS_assert`, `DNDS_check_throw`, thrown exception, `std::abort`) is an explicit
  outcome (`none`/`Except.error`), never a default value. `DNDS_assert` is modelled as active
  (it is unless `DNDS_NDEBUG` is defined).
* Undefined behaviour the code can reach without an assert firing is an explicit outcome too.
* `index`/`rowsize` are unbounded `Nat`/`Int`, except where the property is about overflow.
* Floating-point `real` is modelled by an ordered field / the real numbers (exact arithmetic).
  Rounding is *not* modelled.
* MPI is modelled at the level of matched messages: a distributed array is a function/list over
  ranks; collectives (`Allgather`, `Alltoallv`, `Scan`, `Allreduce`) are their mathematical
  definition; point-to-point receives take the bytes the matching send selected. MPI's
  delivery guarantees are trusted.
* Eigen vectors/matrices are functions on `Fin n` or explicit components.

## Trusted base

* Lean's kernel; axioms `propext`, `Classical.choice`, `Quot.sound` only (no others; see
  "Axioms" below).
* The reading of the C++ recorded in the comments of `Verif/Model`.
* The runtime assumptions above (MPI semantics, exact reals, no memory corruption elsewhere).

## Per-property plan

| id | what is modelled | how it is proved |
|----|------------------|------------------|
| C01 | `Array` with five layouts: flat data, row offsets, row sizes, per-row vectors when decompressed | refinement to `List (List α)`, induction over operation lists |
| C02 | `CSRCompress`/`CSRDecompress` | induction over rows |
| C03 | `at`/`operator[]` address computation with abort outcome | invariant on reachable states; negation witness for shrinking a max layout |
| C04 | `GlobalOffsetsMapping` | prefix sums, induction over ranks |
| C05 | pull constructor + searches of `OffsetAscendIndexMapping` | sorted-dedup lemmas, binary search by its `lower_bound` contract |
| C06 | all ranks' pull constructors with Alltoallv exchange | extensional equality of segments |
| C07 | pull with derived datatypes over a distributed array | message-level semantics, equality with owner lookup |
| C08 | push with arbitrary arrival order | permutation quantification over arrival orders |
| C09 | in-situ pack pull | equality with C07 for fixed and CSR; negation witness for max layouts |
| C10 | guards on `BitVec 64`/`Int` ranges | `omega`/case analysis |
| C11 | `AccumulateRowSize`, `checkUniformVector` | induction |
| C12 | C++ truncated `/`, `%` as `Int.tdiv`, `Int.tmod` | arithmetic; negation witness for `divCeil` |
| C13 | `iterateIdentical` loop | induction on both lists |
| C14 | `ObjectPool` state machine with handles | invariant over histories; witness for move-assignment |
| C15 | path functions on character lists | induction on strings |
| C16 | signature + vectors written under keys | round trip for each layout |
| C17 | codec on byte lists | round trip (compression itself is an external inverse pair) |
| C18 | address-keyed table | histories; witness for address reuse |
| C19 | scan offsets, dataset as a function | tiling by induction over ranks |
| C20 | rotation/translation over ordered field vectors | linear algebra |
| C21 | `BitVec 8` marks | bitvector extensionality |
| C22 | `CheckAdj`, `BreadthFirstSearch` with its visitors, `CuthillMcKeeOrdering`, `ReorderSerialAdj_CorrectRCM` on lists | invariant of the queues (visited and pending are distinct, marked, closed under neighbours); a part removes its vertices from the unvisited ones; pigeonhole for the loop bounds |
| C23 | rank lists with Scan/Allreduce | counting argument |
| C24 | conversions with `-1-i` encoding | case analysis on search results |
| C25 | two-phase inversion with exchange: scan, fathers, ghost map, sons, push-constructed map, pull, merge; hash containers with arbitrary iteration order | invariants of the record, alignment of the two mappings, membership extensionality |
| C26 | the loop of `InterpolateFace` over cells and slots with `node2face`, the search, the comparison of bits (the order of equal nodes in `std::sort` is an argument) | invariant over the loop: faces pairwise different, `node2face` exact, the slots given to a face are the one or two it records |
| C27 | symbolic factorization on sets of columns | invariants over the column loop |
| C28–C29 | in-place decomposition and solves over a (noncommutative) ring | triangular recurrences |
| C30 | LDLT over a ring with an anti-involution | as C28 |
| C31 | bisection loop | induction on iterations |
| C32 | PCG loop over an inner product space | invariants |
| C33 | GMRES control flow | negation witness + partial theorem |
| C34 | ring buffer | refinement to list of past states |
| C35–C38 | coefficient functions | polynomial identities over a field |
| C39–C44 | gas functions over the reals | field identities, derivatives |
| C45–C46 | limiters over the reals | inequalities |
| C47 | `Model/ShapeFunc.lean`: `ShapeFunc_DiNj` tables kept as expressions, the shift near the apex of a pyramid, `GetNj`, `GetD1Nj`, `GetD01Nj`, `GetDiNj`, `PPhysicsCoordD01Nj`, `ShapeJacobianCoordD01Nj` | a verified normal form (polynomial over `den (z-1)^k`) computed by the kernel for every entry; derivatives of normal forms; statements at every real point by soundness of the normal form. |
| C48 | tables | kernel decision over the complete finite table |
| C49 | tables as rationals, scheme choice, points, integration loop | integrals of monomials by the beta integral; kernel arithmetic on rationals for each monomial; lifted to all polynomials by linearity |
| C50 | `BitVec 64` | bit extensionality |
| C51 | collective query | witness + partial theorem |
| C52 | string functions | induction |
| C53 | schedule of request starts | counting; witness for push |
| C54 | elevation and bisection tables with doubled integer coordinates | kernel decision over the complete finite table |
| C55 | `LimitDt_StepPPV2` with the bisection | monotone extrapolation weight, bisection bracket |
| C56 | `StepPP` of both BDF integrators | residual equality for the variable step variant; negation witness for both |
| C57 | Roe average, wave strengths, wave sum | exact jump relations of the Roe average, then algebra |
| C58 | `roeFlux`, `hllepFlux`, `hllcFlux` under exchange of the sides | term by term symmetry; HLLC wave by wave, when not both outer waves point inwards and the contact moves or the states have the velocities of the means; negation witnesses for HLLEP and for the two excluded cases of HLLC |
| C59 | `roeFluxBatch` | pointwise equality; negation witness for `Roe_M1` |
| C60 | `ViscousFlux_IdealGas` | sums over components, derivative of the temperature |
| C61 | limiters on coefficient vectors, candidates as lists | induction over the candidates, orthogonal invariance of symmetric tensors |
| C62 | `Model/BaseFunction.lean`: all tables of `FPolynomialFill2D/3D` transcribed entry by entry | proved equal to the table of iterated partial derivatives (`deriv`) of monomials. |
| C63 | `Model/DiffTensors.lean`: linear conversion of derivative columns and its periodic use | proved by the chain rule for iterated partial derivatives of smooth functions. |
| C64 | `Model/BaseValue.lean`: `FDiffBaseValue` and the moments | from C62 and C63; quadrature points are arbitrary. |
| C65 | `Model/DiffTensors.lean`: `DxDxi2DxiDx`, `ConvertDiffsFullMap` | inverse map proved to third order; the conversion is refuted for maps with second derivatives because it overwrites rows it still needs. |
| C66 | `Model/DiffTensors.lean`: `NormSymDiffOrderTensorV` | weighted sum shown equal to the full contraction, hence invariant. |
| C67 | `Model/ShapeFunc.lean`: the same tables with `GetStandardCoord` | weighted sums of normal forms compared with the monomial; counterexample for `Pyramid14`. |
| C68 | the same, with `FaceNodeList`, `GetFaceType` | face coordinates substituted in the normal forms; counterexample for `Pyramid14`. |
| C69 | the integration loop and the stored shape functions | induction over the points; kernel check of the positions and weights of the finite tables; C47 for the shape functions |
| C70 | the same | the queue is ordered by first neighbour; parts are closed; counterexample for the order by degree |
| C71 | `InterpolateFace` on all ranks: collecting the faces a rank keeps, the push-constructed mapping, conversion to and from global numbers, writing ghost faces into `cell2face`, the pull of ghost rows | every rank's faces relate to the slots of the whole mesh through local names; the global number of a slot is the one its lowest rank gave it; `std::includes` identifies the slot; ghost rows by the owner's numbers |
| C72 | `RecoverCell2CellAndBnd2Cell` on all ranks: the needed nodes, the pull of `node2cell`, the table of appended nodes, the sets of cells | every row read is the row of that node on its owner; the set of a cell is the union of the rows of its nodes |
| C73 | the same, with the orientation of periodic boundary elements by the periodic bits of the two cells | the set of a boundary element is the intersection of the rows; the bits of a side decide the order; returning is equivalent to the existence of the cells |
| C74 | `BuildGhostPrimary`, `AdjGlobal2LocalPrimary` and the sequence of calls from parts to faces | ghosts are the entries of rows owned elsewhere; the local names of C33; the hypotheses of C71 follow from the ghost layer |
| C75 | the accumulation of face fluxes in `EvaluateRHS`, with and without OpenMP, and the wall sum | the tables of C71 give every own cell its faces, with the same sides on all ranks; inner faces cancel in pairs |
| C76 | `LUSGSMatrixVec`, `UpdateSGS`, `UpdateLUSGSForward`/`Backward`, `doPrecondition` (Jacobi and SGS), `LUSGS`, on all ranks with the exchange of ghosts | the loops over faces become sums over the neighbours of the whole mesh (C71); a loop that writes each entry once is described by the order of the cells; induction along the sweep |
| C77 | `JacobianDiagBlock` as a state machine | an invariant on the inverses, kept by every operation |
| C78 | `GetCell2CellFaceVLocal` (faces), `ObtainLocalFactFillOrdering`, `LUSGSMatrixToJacobianLU`, `LUSGSMatrixSolveJacobianLU`, `doPrecondition` (code 2) on all ranks | the assembled blocks are the couplings between own cells (C71, C76), factorization and solve are those of C27 and C28; the rest of a row comes from the exchanged values; Metis and Boost orderings are a parameter that returns inverse permutations |
| C79 | `InPlaceDecompose` with `InvertDiag` on dominant blocks | elimination keeps the gap between the diagonal entry and the rest of a row, by induction over pivots |
| C80 | `FFaceFunctional`, `ConstructRecCoeff`, `GetBoundaryRHS`, the sums of the reconstruction iterations; a polynomial as a function, derivatives as `deriv` | tables are jets (C62 to C66), the functional is a sum of contractions of derivatives; normal equations of a nonnegative quadratic form; regularity from the top derivatives of monomials |
| C81 | `DoReconstructionIter` in all its modes on all ranks, the exchange of ghosts, the solver's loop over steps | a rank's loop over the faces of a cell is the sum of the cell's terms in the system of the whole mesh (C71, C75); fixed points, contraction by induction on the steps; with C80 a solution is a least squares fit in every cell |
| C82 | `DoReconstructionIterDiff`, `DoReconstructionIterSOR` on all ranks | the same loop with the linear terms; residual at a difference by linearity of the transformations; sweeps as in C76 |
| C83 | `EvaluateURecBeta`, `DownCastURecOrder` (method 0) on all ranks, real numbers | the internal energy is concave in the state (C57), so values between a good one and a floor value stay good; the root formula of C57 gives the factor; induction over points and degrees |
| C84 | `EvaluateCellRHSAlpha` on all ranks, `CompressInc`, `AddFixedIncrement`, `AssertMeanValuePP`, `fincrement`, `CompressRecPart` | the same concavity along the increment; invariant over histories of increments |
| C85 | `ReorderLocalCells` and `GetCell2CellFaceVLocal` on all ranks, then `InterpolateFace` | the mesh is described by its parts (C72-C74); a permutation of each rank's numbers carries the description over; the graph is symmetric, so C70 gives the order; every table look-up finds its entry because it was asked for |
| C86 | `EvaluateDt` on all ranks, with the flux accumulation of C75 and the Lax-Friedrichs flux of C58 | the speed of a face does not change when a periodic boundary turns the states; sums over faces are those of the mesh (C75); the update is a combination of the cell's state and terms `λ w - F(w)` of its neighbours, which are physical because `λ` bounds the speeds |
| C87 | `BuildO2FromO1Elevation` on all ranks: choice of the owner of each new node, numbering, exchange, search by position, boundary elements | the owner found by each cell is the first cell of the whole mesh that contains the span, because neighbours are complete (C73); so first cells number all new nodes once, and every other cell finds its node among the new nodes of that cell by position; the mesh axioms of C75 carry over because faces and spans of the new elements are tabulated |
| C88 | the operations of `ArrayDOFV` on all ranks, programs that choose operations by results so far | every operation maps own rows and copies alike, so putting own rows together commutes with it; induction over the program |
| C89 | `TimeAverageAddition` | the time times the average is a sum over the history; induction |
| C90 | `EvaluateNorm`, `EvaluateRecNorm` on all ranks | sums and maxima over ranks of sums and maxima over cells are those over all cells |
| C91 | `MinSmoothDTau` and the loop of `fdtau` on all ranks, after `EvaluateDt` | the loop over the faces of a cell meets exactly the cells behind its faces (C76); induction over passes; the mean of values at least `m` is at least `m` |
| C92 | the loop of `InterpolateFace` over the boundary elements, the exchange of the face information, `AssertOnFaces` | invariant of the loop: a face has the element with the lowest cell of those met; local cell order on the owner gives the first side; the orientation is the same on all ranks (C76); the row of an own cell lists the faces with that cell once each |
| C93 | `ConstructBndMesh`: counting references, numbering, ghost mapping, parents, coordinates, cells | counts over all ranks are positive exactly at boundary nodes; numbers are `Nat.count`; pulled numbers are the owner's; composed with C71 and C92 the cells are the sides of the whole mesh |
| C94 | `generateBoundaryValue` with both frame changes, without the types of single test cases | states are described by density, pressure, inertial velocity and turbulence per mass; a change of frame is a change of the velocity; each branch is computed on that description |
| C95 | the boundary values of C94 put into the fluxes of C41, C58 and C59 | mirrored states make the wave speeds symmetric and the jump a multiple of the two acoustic waves, which cancel in mass; energy against the work of the force; HLLC and HLLEP: witnesses that leak |
| C96 | the recorders of `EulerBC.hpp` with the functions that fill and reduce them, `GetTanhDistributionBilateral` | the loop over intervals adds the shared length, clipped shares telescope to one; `MINLOC` by induction over ranks; interpolation is convex |
| C97 | `BoundaryHandler` with `from_json`, `to_json` and its getters; JSON objects are lists of keys and values | the handler after any list is given in closed form, by induction over the list; names are found in any order of the map because their numbers differ |
| C98 | `ArrayPair`, `ArrayEigenMatrix`, `UnstructuredMesh` and `Periodicity` to and from files of all ranks, names of restarts, `ReadRestartOtherSolver` | round trip of one array (C16) lifted to all ranks; asking again for the ghosts of a mapping gives the same mapping |
| C99 | `DoLimiterWBAP_C` and `DoLimiterWBAP_3` on all ranks, with the characteristic transformations as arguments | induction over the degrees in a cell, the sweep over cells of all ranks and the exchange as in C81 |
| C100 | `fML` and `fMR` with the frame of the face and the eigenvectors of C40 | orthonormality of the frame, invariance of the flux derivative under turning, then C40 and C99 |
| C101 | both indicator procedures, in a cell and on a rank, with the functional of C80 | derivatives of shifted polynomials, the functional as a sum of squares, the largest entry; local faces as in C99 |
| C102 | the duplication of periodic nodes with its exchange of flags, the VTK table, the offsets and the slabs of every dataset | the flags of all ranks meet at the owner of a node; points numbered rank by rank; slabs one after the other fill a dataset; VTK's numbering rules as a separate description, compared type by type |
| C103 | the cut of all cells and boundary elements of a rank, with the choice of the diagonal | the tables of parts compared with the tables of faces under all ways to read a face; faces that meet have parts that meet; lists of parts of all ranks |
| C104 | the driver with its ring of lifts, angles that may be NaN, the rotation and the coefficients | the ring holds the lifts since the last change, by induction over the calls; the state is a function of the log of messages; closed loop with a linear lift by induction over periods |
| C105 | rotation matrices; configuration of periodic transformations, turning, scaling and rectifying of mesh and boundary mesh | algebra of the projector and the cross product matrix of a unit axis; the transformations commute with the map of the points, step by step over the marks |
| C106 | rotating frame: rate, radius, cylindrical frame, velocity of the mesh, far field, source and its Jacobian | derivative of the rotation about an axis; the source is linear; algebra of the cross product |
| C107 | radial basis functions, both solves of their coefficients, and the smoother that moves inner nodes | uniqueness of the interpolation from the regularity of its matrix; the loops over nodes by induction |
| C108 | points in the middle of curved edges and quadrilaterals | uniqueness of the tangent; polynomial identities; orthogonal maps |
| C109 | the three isentropic vortices and `float_mod` | derivatives of the four conserved quantities and both fluxes by the chain rule; the pressure balances the rotation |
| C110 | the sums over boundary faces of `EvaluateRHS` on all ranks, the choice of zones for the lift driver and their total | induction over faces and ranks: how often each face is counted, exactly |
| C111 | rectification of symmetry planes on all ranks with the exchange of coordinates | induction over elements and nodes; what the exchange keeps |
| C112 | `muEff`, `getMuTur` for Spalart-Allmaras, viscosity, fluxes and sources of the k-epsilon model, viscosity of the k-omega models | inequalities for real functions; invariance of the velocity gradient |
| C113 | sources of both k-omega models, both modes | inequalities for real functions; the gradient without divergence; states that break the two failing parts |
| C114 | source of the Spalart-Allmaras model with its negative branch and the correction for rotation, both modes | inequalities for real functions; a flow without strain breaks the failing part |

(Ids follow `properties.jsonl`; rows are updated as the model grows.)

## Axioms

Every theorem listed in `MANIFEST.json` depends on a subset of `propext`, `Classical.choice` and
`Quot.sound` (checked by `vcheck`, and by `#print axioms` for any single one). No axiom is declared
in `Verif`, nothing is accepted by compiled evaluation: tables that are finite and complete are
checked with `decide +kernel`, that is by reduction in the kernel.

## What is modelled, by source file

The lines are in the comment of each definition of the module named.

| source | modelled | module | not modelled |
|--------|----------|--------|--------------|
| `DNDS/Defines.hpp` | integer helpers, hashes, string helpers, `DNDS_assert` as abort | `Defines`, `Basic` | logging, signals, terminal output |
| `DNDS/Array.hpp` | layouts, sizes, resizing, row access, compression, copy, swap, `WriteSerializer`/`ReadSerializer` | `Array`, `SerArray` | device storage, `shared_ptr` identity of the row starts |
| `DNDS/ArrayTransformer.hpp`, `ArrayPair.hpp` | ghost mapping, pulls and pushes, persistent requests, in-situ pack, schedules of starts | `Transformer`, `CommSchedule` | MPI datatypes, buffers inside MPI |
| `DNDS/IndexMapping.hpp` | `GlobalOffsetsMapping`, `OffsetAscendIndexMapping` | `IndexMapping` | 32-bit truncation of counts |
| `DNDS/ObjectPool.hpp`, `ArrayDerived/ArrayEigenMatrixBatch.hpp` | all operations | `ObjectPool`, `Bits` | alignment |
| `DNDS/SerializerJSON.cpp`, `SerializerH5.cpp` | paths, reads, writes, shared vectors, collective parts | `Serializer` | HDF5, zlib, base64 and the JSON text themselves |
| `Geom/Elements.hpp`, `Elements.cpp` | counts, face and elevation tables, bisection, shape functions and their derivatives, physical coordinates, VTK types | `Elements`, `ShapeFunc`, `VtkOut` | `cellsAreFaceConnected` |
| `Geom/Quadrature.hpp` | all schemes, `Integration` | `Quadrature` | `QuadratureHammerHex` variants not used by an element type |
| `Geom/BaseFunction.hpp`, `DiffTensors.hpp`, `EigenTensor.hpp` | polynomial tables, conversions, norms | `BaseFunction`, `DiffTensors` | |
| `Geom/PeriodicInfo.hpp`, `BoundaryCondition.hpp` | bits, transformations, zone predicates | `Bits`, `Periodic` | names of boundary conditions |
| `Geom/CorrectRCM.hpp`, `SerialAdjReordering.hpp` | Cuthill-McKee and its caller | `RCM` | Metis and Boost (a parameter returning inverse permutations) |
| `Geom/Mesh.hpp`, `Mesh.cpp` | partition and redistribution, inversions, neighbours, ghost layer, faces, local and global numbers, reordering | `Partition`, `Node2Cell`, `GhostPrimary`, `Faces`, `FacesGhost`, `FaceZones`, `BndMesh`, `MeshAdj`, `Reorder`, `PairFile` | wall distance |
| `Geom/Mesh_Serial_Partition.cpp` | local graphs and orderings | `SweepsDirect`, `Reorder` | the call to Metis |
| `CFV/Limiters.hpp` | all limiters | `Limiters` | |
| `CFV/VariationalReconstruction*.{hpp,cpp,hxx}` | base functions, moments, functional, matrices, all iterations, downcast | `BaseValue`, `Recon`, `RecIter`, `Positivity`, `LimProc`, `SmoothInd` | metrics, second-order Green-Gauss variants |
| `Solver/Linear.hpp`, `Direct.hpp`, `Scalar.hpp`, `ODE.hpp` | PCG, GMRES, symbolic and numeric factorizations, bisection, all integrators | `Linear`, `DirectSym`, `DirectLU`, `DirectInv`, `ODE`, `ODERk` | progress output |
| `Euler/Gas.hpp` | states, fluxes (Roe, HLLC, HLLEP, batch), viscous flux, compression ratios | `Gas`, `GasRatio`, `GasVisc` | eigenvector wrappers |
| `Euler/EulerEvaluator*.{hpp,hxx}` | flux accumulation, time steps and their smoothing, sweeps, direct preconditioner, positivity, boundary values | `FluxSum`, `TimeStep`, `SmoothDt`, `Sweeps`, `SweepsDirect`, `Positivity`, `Boundary` | boundary values of single test cases, RANS sources, wall functions |
| `Euler/Euler.hpp` | vector operations of `ArrayDOFV` and `ArrayRECV`, averages over time, norms (from `EulerEvaluator.hxx`) | `DofVec` | gradients, output conversions |
| `Euler/EulerJacobian.hpp`, `EulerSolver.hxx` | diagonal blocks, local factorization, reconstruction and preconditioner loops | `Sweeps`, `SweepsDirect`, `DirectInv`, `RecIter`, `PairFile` (restarts), `CharVar` | input, output, time marching loop |
| `Geom/Mesh_Elevation.cpp` | `BuildO2FromO1Elevation`, `BuildBisectO1FormO2`, `HermiteInterpolateMidPointOn*WithNorm` | `Elevation`, `Bisect`, `MidPoint` | `ElevatedNodesGetBoundarySmooth` |
| `Euler/EulerBC.hpp`, `Geom/Grid.hpp` | zones and their JSON, recorders, profiles, distribution of nodes | `BndZones`, `BndRecord` | choice of output |
| `Geom/Mesh_Plts.cpp`, `Mesh_Serial_BuildCell2Cell.cpp` | the VTKHDF file, duplication of periodic nodes | `VtkOut` | VTU and Tecplot files |
| `Euler/EulerSolver_Init.hxx` | periodic angles, turning, scaling and rectifying the mesh | `MeshMove` | the other steps of the start, symmetry planes |
| `Euler/EulerEvaluatorSettings.hpp`, source of `EulerEvaluator_EvaluateDt.hxx` | rotating frame, body force | `RotFrame` | sources of turbulence, relative velocities |
| `Euler/SpecialFields.hpp` | the three vortices | `Vortex` | third dimension, turbulence |
| `Euler/EulerEvaluator_EvaluateRHS.hxx` (boundary sums), `Euler/EulerEvaluator.hpp` (lift force) | wall sum, recorders, total over named zones | `LiftForce` | recorders of mass flow (`BndRecord`) |
| `Euler/EulerSolver_Init.hxx` (symmetry planes) | rectification and exchange | `SymPlane` | the mesh of the boundary alone |
| `Euler/EulerEvaluator.hpp` (viscosity), `Euler/RANS_ke.hpp` | laws of viscosity, Spalart-Allmaras viscosity, k-epsilon, viscosity and sources of the k-omega models, source of Spalart-Allmaras | `TurbVisc`, `TurbKOmega`, `TurbSource`, `TurbSA` | variants that are not compiled, checks for numbers that are not finite |
| `Euler/CLDriver.hpp`, `Geom/Geometric.hpp` | the whole driver; rotations, cross products | `LiftDriver`, `Rotation` | deviation in the message |
| `Geom/RadialBasisFunction.hpp`, `Mesh_Elevation_SmoothSolver.cpp` | kernels, both solves; `ElevatedNodesSolveInternalSmooth` | `Rbf` | the smoothers `V1Old`, `V1` and `V2`; `GetMaxRij` |
| `Mesh_Serial_ReadFromCGNS.cpp`, `OpenFOAMMesh.hpp`, the rest of `Euler/RANS_ke.hpp`, bindings | nothing | | |

## Where the code does not do what the property says

Each is a theorem with a witness; the property is then proved with the exception as a hypothesis,
or marked partial.

* Helpers: `divide_ceil` for negative numbers, the order-insensitive hash (C12), bounds of the global offsets (C04).
* Arrays: growing an empty compressed array, shrinking a padded table, swapping padded tables (C01).
* Exchange: push-constructed lookups, in-situ pack, one-by-one pushes (C05, C09, C53); ranks that disagree in a collective query (C51).
* Serialization: vectors shared by address, ranks disagreeing, collective reads that skip a rank (C16, C18, C19).
* Solvers: GMRES on breakdown (C33), stage times of SSPRK3 and a tableau with rounded entries (C36-C38),
  Hermite first step, `StepPP` residuals (C56), `InvertDiag` on zero diagonal entries (C29), bisection's early return (C31).
* Gas: HLLC on moving meshes (C41), asymmetric HLLEP and HLLC (C58), batch Roe (C59),
  gas that HLLC and HLLEP let through walls (C95).
* Elements: `Pyramid14` (C67, C68), `ConvertDiffsFullMap` (C65), quadrature orders above 6 (C49).
* Mesh: Cuthill-McKee's predecessor test (C70), thin periodic meshes (C71), cells that neighbour
  themselves (C75, C76), two cells with two common faces and ordering collectives (C78), elements of a periodic face (C92).
* Reconstruction: dropped boundary terms, sweeps that leave a solution (C81, C82).
* Positivity: further variables of two-equation models, a power that rounds to zero, `RANSRelax` (C83, C84).
* Time steps: the state behind a boundary is not looked at (C86).
* Boundaries: a face at one radius makes a profile undefined (C96); the integration option of inlets, outlets and symmetry planes is not written back (C97).
* Files: matrices with their own numbers of rows cannot be read as uniform ones, and a fixed number of rows is not compared with that of the file (C98).
* Limiter procedures: `normWBAP` in three dimensions never returns above the first degree; vectors of neighbours across rotated periodic boundaries are not turned (C99).
* Angle of attack: `CLconvergeLongThreshold` is an integer, so that `1e-4` becomes zero and convergence is not reported; the angle becomes NaN when neither it nor the lift changed; the lift axis may be the axis of rotation (C104).
* Start: the boundary mesh keeps the periodic transformations of the mesh before it is turned and scaled; rectification does not keep periodic pairs (C105).
* Rotating frame: the Jacobian of the source leaves out the weight; the radius ignores the center of rotation; in two dimensions an axis in the plane is accepted (C106).
* Radial basis functions: the smoother compares a distance with the square of the radius; it has no polynomial part, so a uniform displacement is not kept; it moves nodes that were marked as lying on other boundaries (C107).
* Vortices: the moving vortex jumps at the ends of its period, so the exact field is not an exact solution there (C109).
* Lift driver: naming a standard wall zone adds the force on all walls, once per named standard zone; with both standard zones, or a wall of the user beside a standard one, the force is counted twice, and slip walls are left out in a viscous fluid (C110).
* Symmetry planes: coordinates are set to zero by the rank of the boundary element and then overwritten by the exchange with those of the owner of the node, so that nodes whose owner has no element of the plane stay off it (C111).
* Turbulence: the sources of the k-epsilon model read turbulent energy where they need dissipation, so that the time scale ignores dissipation (C112).
* Turbulence: in the shear stress transport model the upper limit of production starts again from the unlimited value, so that the lower limit is lost, and the factor of the production of specific dissipation is blended with itself (C113).
* Turbulence: the correction for rotation of the Spalart-Allmaras model makes production negative in a flow that rotates without strain, against the comment beside its factor (C114).
* Output: building the VTK connectivity twice on the same mesh appends it twice, and the ranks then write overlapping parts of the file (C102).
* Vectors: factors given as `std::vector` leave copies stale (C88); `EvaluateRecNorm` with `P = 3` adds maxima, averages divide after the root (C90).

Found while reading but outside the model: `EvaluateNorm` adds to `rescBase` in an OpenMP loop without a reduction;
the linear solvers of the reconstruction pass `uRec` where the comment suggests the compared field;
`JLocalLU` is only built when the main Jacobian code is 2, so a coarse grid with code 2 alone dereferences null.
