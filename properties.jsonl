{"id": "C01", "title": "Array behaves as a list of rows", "statement": "A DNDS::Array in any of its five data layouts (static fixed, dynamic fixed, static max, dynamic max, CSR) behaves as a list of rows: after any sequence of Resize, ResizeRow, Compress, Decompress and element writes that the array accepts, Size(), RowSize(i) and the element at (i,j) are exactly those of a list of rows driven by the same operations, and a write to one element changes no other element.", "quantifier": "every layout, every operation sequence, every row/column index and element value", "why_tests_cant": "operation sequences and row-size patterns are unbounded; flat storage offset errors only appear for particular mixes of row sizes", "anchors": ["src/DNDS/Array.hpp: _GetDataLayout, Resize, ResizeRow, RowSize, at, operator[]"]}
{"id": "C02", "title": "CSR compress/decompress keeps contents", "statement": "Compress followed by Decompress, and Decompress followed by Compress, leave every row (its length and elements) of a CSR array unchanged; the compressed form has monotone row offsets that start at 0 and end at the flat data size.", "quantifier": "every CSR array, any number and sizes of rows including empty ones", "why_tests_cant": "the property is about all row-size vectors", "anchors": ["src/DNDS/Array.hpp: CSRCompress, CSRDecompress, IfCompressed"]}
{"id": "C03", "title": "Checked access never leaves the row storage", "statement": "On a reachable array, at(i,j) with i outside [0,Size()) or j outside [0,RowSize(i)) aborts, and any access that does not abort addresses a slot of the array's own flat buffer that belongs to row i only.", "quantifier": "every layout, reachable state and index pair", "why_tests_cant": "out-of-bounds addressing is silent in tests; it must hold for all states including after shrinking resizes", "anchors": ["src/DNDS/Array.hpp: at, operator[], Resize"]}
{"id": "C04", "title": "Global offsets search is exact", "statement": "With every rank contributing a local length, the global-offset table maps (rank, local index) to a global index bijectively onto [0, total), search is its inverse (skipping ranks that own nothing), and a query outside [0,total) reports not found.", "quantifier": "every number of ranks, every vector of local lengths (zeros allowed), every query", "why_tests_cant": "all length vectors, in particular empty ranks, cannot be enumerated", "anchors": ["src/DNDS/IndexMapping.hpp: GlobalOffsetsMapping::setMPIAlignBcast, operator(), search"]}
{"id": "C05", "title": "Ghost index mapping round trip", "statement": "After the pull-type ghost mapping is built from any requested set of global indices, looking up a global index returns: its local index if owned, the owned count plus its position in the ghost list if requested, and not-found otherwise; mapping a returned append index back gives the same global index; the ghost list has no duplicates.", "quantifier": "every global offset table, every requested multiset of global indices, every query index", "why_tests_cant": "depends on arbitrary index sets with duplicates, own indices and empty ranks", "anchors": ["src/DNDS/IndexMapping.hpp: OffsetAscendIndexMapping (pull constructor), search_indexAppend, search_indexRank, operator()"]}
{"id": "C06", "title": "Push and pull mappings agree across ranks", "statement": "For each pair of ranks, the list of local indices rank r is told to send to rank s has the same length and refers to the same global entries in the same order as the segment of s's ghost list owned by r, so the per-pair message lengths always match.", "quantifier": "every number of ranks and every family of requested ghost index sets", "why_tests_cant": "mismatched segments show up only for particular communication patterns", "anchors": ["src/DNDS/IndexMapping.hpp: OffsetAscendIndexMapping pull constructor", "src/DNDS/ArrayTransformer.hpp: createGhostMapping"]}
{"id": "C07", "title": "Ghost pull delivers owner data", "statement": "After pullOnce, every ghost row on every rank equals the owner's row of the same global index, owned rows are unchanged, and this holds for fixed-size rows and for CSR rows.", "quantifier": "every number of ranks, every ghost request family, every array content", "why_tests_cant": "must hold for all communication patterns; tests use a handful of meshes and rank counts", "anchors": ["src/DNDS/ArrayTransformer.hpp: createMPITypes, initPersistentPull, startPersistentPull, waitPersistentPull, pullOnce"]}
{"id": "C08", "title": "Ghost push writes back to owners", "statement": "After pushOnce, every owned row requested as a ghost by at least one rank equals some requesting rank's ghost copy (the requester's value if unique), and rows requested by nobody, as well as all ghost rows, are unchanged.", "quantifier": "every number of ranks, ghost request family, contents and message arrival order", "why_tests_cant": "arrival order of messages from several pushers is a schedule that tests do not control", "anchors": ["src/DNDS/ArrayTransformer.hpp: initPersistentPush, startPersistentPush, waitPersistentPush, pushOnce"]}
{"id": "C09", "title": "Packed and derived-type transfers agree", "statement": "The in-situ-pack communication strategy and the derived-datatype strategy of ghost pull put the same values in the same ghost slots.", "quantifier": "every layout, ghost mapping and content", "why_tests_cant": "agreement must hold for all row-size patterns; with max-size layouts it fails for partially filled rows", "anchors": ["src/DNDS/ArrayTransformer.hpp: __InSituPackStartPull, waitPersistentPull, createMPITypes"]}
{"id": "C10", "title": "Overflow guards are exact", "statement": "SafeAdd-style addition returns the mathematical sum exactly when it is representable and aborts otherwise; the 64-to-32-bit index check and the size_t-to-signed conversion return the same value or abort.", "quantifier": "all 64-bit (and 32-bit) operand pairs", "why_tests_cant": "2^128 operand pairs", "anchors": ["src/DNDS/Defines.hpp: signedIntWillAddOverflow, signedIntSafeAdd, checkedIndexTo32, size_t_to_signed"]}
{"id": "C11", "title": "Row-size accumulation", "statement": "Accumulating a list of row sizes yields offsets with offs[0]=0 and offs[i+1]-offs[i]=size[i], ending in the total; uniform-size detection answers true exactly for non-empty constant lists and returns that value.", "quantifier": "every list of row sizes", "why_tests_cant": "unbounded lists", "anchors": ["src/DNDS/Defines.hpp: AccumulateRowSize, checkUniformVector"]}
{"id": "C12", "title": "Integer helpers", "statement": "mod returns the representative in [0,n) congruent to its argument; divide_ceil returns the ceiling of the quotient; divCeil returns the ceiling of the quotient.", "quantifier": "all integers with positive divisor", "why_tests_cant": "infinitely many operand pairs; divCeil is wrong because of operator precedence", "anchors": ["src/DNDS/Defines.hpp: mod, divide_ceil, divCeil"]}
{"id": "C13", "title": "Sorted merge visits exactly the common elements", "statement": "Iterating the identical entries of two strictly ascending index ranges calls the visitor exactly once for each common value, with the correct position in both ranges, in ascending order, and stops early exactly when the visitor asks.", "quantifier": "every pair of strictly sorted sequences", "why_tests_cant": "unbounded sequences", "anchors": ["src/DNDS/Defines.hpp: iterateIdentical"]}
{"id": "C14", "title": "Object pool conservation", "statement": "Across any history of getting, dropping, moving and resizing, an object of the pool is never held by two handles at once and, unless handles are move-assigned over or the pool is resized, objects in the pool plus objects held equals the number created.", "quantifier": "every operation history", "why_tests_cant": "histories are unbounded", "anchors": ["src/DNDS/ObjectPool.hpp: ObjectPool::get, resize, ObjectPoolAllocated"]}
{"id": "C15", "title": "Serializer path normalization", "statement": "Entering a relative or absolute path in the JSON serializer lands on the location obtained by appending to, or replacing, the current location; the textual path it reports splits back into the same components; leaving with an absolute path restores the previous location.", "quantifier": "every path string and every history of path changes", "why_tests_cant": "all strings and histories", "anchors": ["src/DNDS/SerializerJSON.cpp: CreatePath, GoToPath, GetCurrentPath", "src/DNDS/Defines.hpp: splitSString, splitSStringClean"]}
{"id": "C16", "title": "Array serialization round trip", "statement": "Writing an array with any layout to the serializer and reading it back into an array object of a compatible type gives an array with the same rows; reading into an incompatible type aborts.", "quantifier": "every layout, array content and compatible/incompatible reader type", "why_tests_cant": "unbounded contents and pairs of signatures", "anchors": ["src/DNDS/Array.hpp: GetArraySignature, ArraySignatureIsCompatible, WriteSerializer, ReadSerializer"]}
{"id": "C17", "title": "Byte codec round trip", "statement": "Encoding a byte array as text (plain or compressed form) and decoding it returns the same bytes for every byte sequence.", "quantifier": "every byte sequence and codec setting", "why_tests_cant": "unbounded byte sequences", "anchors": ["src/DNDS/SerializerJSON.cpp: WriteUint8Array, ReadUint8Array"]}
{"id": "C18", "title": "Shared vectors stay shared", "statement": "Vectors written through the shared-vector API by the same owner come back as the same shared object, different ones come back as distinct objects, and contents are those at writing time.", "quantifier": "every history of shared writes and reads, including objects destroyed between writes", "why_tests_cant": "the table is keyed by address, so address reuse histories matter", "anchors": ["src/DNDS/SerializerJSON.cpp: WriteSharedIndexVector, ReadSharedIndexVector"]}
{"id": "C19", "title": "Distributed slices tile the data set", "statement": "With per-rank sizes, the offsets computed for a collective write tile [0,total) without gaps or overlap in rank order, and reading back with the same rank offsets gives each rank exactly what it wrote.", "quantifier": "every rank count and size vector", "why_tests_cant": "unbounded size vectors with zeros", "anchors": ["src/DNDS/SerializerH5.cpp: H5_WriteDataset, H5_ReadDataset, ArrayGlobalOffset_Parts handling", "src/DNDS/SerializerBase.hpp: ArrayGlobalOffset"]}
{"id": "C20", "title": "Periodic transforms invert", "statement": "For orthogonal rotation matrices, transforming a coordinate through a periodic boundary and back is the identity, distances are preserved, and transforming by any set of periodic bits then back by the same bits is the identity.", "quantifier": "all coordinates, rotation/translation data and bit sets", "why_tests_cant": "continuous inputs", "anchors": ["src/Geom/PeriodicInfo.hpp: TransCoord, TransCoordBack, GetCoordByBits, GetCoordBackByBits, TransVector, TransMat"]}
{"id": "C21", "title": "Periodic bit algebra", "statement": "Periodic bit marks form a group under xor in which each mark is its own inverse, setting and reading a flag agree and do not affect other flags.", "quantifier": "all 8-bit marks and flags", "why_tests_cant": "must hold for all combinations used by face matching", "anchors": ["src/Geom/PeriodicInfo.hpp: NodePeriodicBits"]}
{"id": "C22", "title": "Reverse Cuthill-McKee returns a permutation", "statement": "For every symmetric adjacency list the reordering visits every vertex exactly once, so the produced ordering and its inverse are mutually inverse permutations, whether or not the graph is connected.", "quantifier": "every symmetric graph, any size, any comparator values", "why_tests_cant": "all graphs", "anchors": ["src/Geom/CorrectRCM.hpp: CuthillMcKeeOrdering, BreadthFirstSearch", "src/Geom/SerialAdjReordering.hpp"]}
{"id": "C23", "title": "Partition renumbering is a bijection", "statement": "Given any assignment of serially distributed entities to ranks, the serial-to-global numbering is a bijection onto [0,N) that groups entities by target rank, and the transferred entity is stored exactly at the position its global number denotes.", "quantifier": "every rank count, per-rank size and assignment", "why_tests_cant": "all assignments and sizes", "anchors": ["src/Geom/Mesh.cpp: Partition2Serial2Global, Partition2LocalIdx, ConvertAdjSerial2Global, TransferDataSerial2Global"]}
{"id": "C24", "title": "Adjacency global/local conversion round trip", "statement": "Converting mesh adjacency from global to local numbering and back restores every entry, including entries not present locally and uninitialised marks.", "quantifier": "every adjacency content and ghost mapping", "why_tests_cant": "all adjacency contents", "anchors": ["src/Geom/Mesh.cpp: AdjGlobal2LocalPrimary, AdjLocal2GlobalPrimary", "src/Geom/Mesh.hpp: NodeIndexGlobal2Local, NodeIndexLocal2Global"]}
{"id": "C25", "title": "Node-to-cell is the exact inverse of cell-to-node", "statement": "After inverting the cell-to-node relation over all ranks, a cell appears in a node's list exactly when the node appears in the cell's list, once.", "quantifier": "every distributed cell-to-node relation", "why_tests_cant": "all meshes and distributions", "anchors": ["src/Geom/Mesh.cpp: GeneralCell2NodeToNode2Cell"]}
{"id": "C26", "title": "Face interpolation is sound", "statement": "After building faces from cells: every cell face slot refers to a face with the slot's type and vertex set, two cell slots refer to the same face exactly when they have the same type, equal vertex sets and, in a periodic mesh, periodic bits that differ by one and the same mark, and every face records its one or two cells. A mesh in which three slots are one face is refused.", "quantifier": "every cell-to-node relation in which no vertex set is shared by three face slots", "why_tests_cant": "all meshes", "anchors": ["src/Geom/Mesh.cpp: InterpolateFace"]}
{"id": "C27", "title": "Symbolic factorization covers the pattern", "statement": "The symbolic LU structure contains every off-diagonal neighbour, is symmetric (lower rows are the transpose of upper rows), its rows are strictly sorted, cross positions between lower and upper storage point at the mirrored entry, and for the complete factorization it is closed under fill-in.", "quantifier": "every symmetric adjacency, permutation and fill level", "why_tests_cant": "all sparsity patterns", "anchors": ["src/Solver/Direct.hpp: SerialSymLUStructure::ObtainSymmetricSymbolicFactorization"]}
{"id": "C28", "title": "Complete block LU solves exactly", "statement": "With a pattern closed under fill-in and invertible pivots, decomposing in place and solving returns x with A x = b, where A is the block matrix that MatMul applied before decomposition.", "quantifier": "every ring of blocks, pattern closed under fill, block values with invertible pivots, right-hand side", "why_tests_cant": "all matrices and patterns", "anchors": ["src/Solver/Direct.hpp: LocalLUBase::InPlaceDecompose, Solve, MatMul"]}
{"id": "C29", "title": "Incomplete LU matches A on the pattern", "statement": "For any symmetric pattern the in-place decomposition yields factors whose product agrees with A at every entry of the pattern.", "quantifier": "every pattern and block values with invertible pivots", "why_tests_cant": "all matrices and patterns", "anchors": ["src/Solver/Direct.hpp: LocalLUBase::InPlaceDecomposeV1"]}
{"id": "C30", "title": "Block LDLT solves exactly", "statement": "For a symmetric block matrix with pattern closed under fill-in and invertible pivots, the LDLT decomposition followed by Solve returns x with A x = b.", "quantifier": "every symmetric block matrix with closed pattern", "why_tests_cant": "all matrices", "anchors": ["src/Solver/Direct.hpp: LocalLDLTBase::InPlaceDecompose, Solve"]}
{"id": "C31", "title": "Bisection returns a lower bracket", "statement": "For a monotone function, the bisection returns a point of the interval at which the function does not exceed the target and which is within (v1-v0)/2^n of the crossing; only when the function at the left end is already within 1e-200 of the target is the left end returned at once, and without a bracket it aborts.", "quantifier": "all monotone functions, intervals, targets and iteration counts", "why_tests_cant": "all functions", "anchors": ["src/Solver/Scalar.hpp: BisectSolveLower"]}
{"id": "C32", "title": "Conjugate gradient is exact on convergence directions", "statement": "In every PCG iteration the maintained residual equals b - A x, so the reported convergence is about the true residual, and for symmetric non-negative A the error's A-norm does not increase over any history of solve and reset calls; without the safeguard in the denominators it returns the solution after at most as many steps as the dimension.", "quantifier": "all linear operators, preconditioners, right-hand sides and iteration counts (exact arithmetic)", "why_tests_cant": "all operators", "anchors": ["src/Solver/Linear.hpp: PCG_PreconditionedRes"]}
{"id": "C33", "title": "GMRES success means solved", "statement": "When the restarted GMRES solver returns true without hitting its restart limit, the returned x satisfies the residual criterion.", "quantifier": "all linear operators, start values, restart lengths", "why_tests_cant": "all operators; the early-breakdown path is wrong", "anchors": ["src/Solver/Linear.hpp: GMRES_LeftPreconditioned::solve"]}
{"id": "C34", "title": "Multistep history is a faithful window", "statement": "At every step the BDF integrator combines the current state with exactly the states of the previous steps in order of age, up to its order, starting at lower order until enough history exists.", "quantifier": "every number of steps and order", "why_tests_cant": "unbounded step histories over a ring buffer", "anchors": ["src/Solver/ODE.hpp: ImplicitBDFDualTimeStep::Step"]}
{"id": "C35", "title": "BDF formulas are exact for polynomials", "statement": "The order-k constant step BDF coefficients reproduce every polynomial of degree at most k, and the variable-step second order coefficients reproduce every quadratic for every pair of positive step sizes.", "quantifier": "all polynomials of the degree and all positive steps", "why_tests_cant": "continuous inputs", "anchors": ["src/Solver/ODE.hpp: ImplicitBDFDualTimeStep::BDFCoefs, ImplicitVBDFDualTimeStep::VBDFFrontMatters"]}
{"id": "C36", "title": "Hermite scheme order", "statement": "The Hermite-based two-stage implicit scheme's quadrature and interpolation coefficients integrate/interpolate exactly all polynomials up to the design degree for every stage position alpha in (0,1).", "quantifier": "all alpha and polynomials", "why_tests_cant": "continuous inputs", "anchors": ["src/Solver/ODE.hpp: ImplicitHermite3SimpleJacobianDualStep::SetCoefs, Step"]}
{"id": "C37", "title": "SSP Runge-Kutta step", "statement": "The explicit three-stage step is a convex combination of forward Euler steps (so any convex set invariant under forward Euler is invariant) and is third order accurate for time-dependent right-hand sides.", "quantifier": "all convex sets, right-hand sides, states and steps", "why_tests_cant": "all right-hand sides; the stage times used are wrong so the order claim fails for time-dependent problems", "anchors": ["src/Solver/ODE.hpp: ExplicitSSPRK3TimeStepAsImplicitDualTimeStep::Step"]}
{"id": "C38", "title": "SDIRK tableau consistency", "statement": "Stage abscissae equal row sums of the stage matrix, weights sum to one, and the order conditions hold.", "quantifier": "all parameter values defining the tableau", "why_tests_cant": "algebraic identity over the reals", "anchors": ["src/Solver/ODE.hpp: ImplicitSDIRK4DualTimeStep"]}
{"id": "C39", "title": "Conservative/primitive round trip", "statement": "Converting a conservative state with positive density to primitive variables and back, or a primitive state to conservative and back, is the identity; pressure, sound speed and enthalpy satisfy the ideal gas relations.", "quantifier": "all states with nonzero density, every gamma different from 1, every dimension", "why_tests_cant": "continuous inputs", "anchors": ["src/Euler/Gas.hpp: IdealGasThermalConservative2Primitive, IdealGasThermalPrimitive2Conservative, IdealGasThermal"]}
{"id": "C40", "title": "Characteristic eigenvectors", "statement": "The left eigenvector matrix is the inverse of the right eigenvector matrix and together they diagonalise the flux Jacobian with eigenvalues u-a, u, u+a.", "quantifier": "all velocities, sound speeds, dimensions", "why_tests_cant": "continuous inputs", "anchors": ["src/Euler/Gas.hpp: EulerGasRightEigenVector, EulerGasLeftEigenVector"]}
{"id": "C41", "title": "Numerical flux consistency", "statement": "Every Riemann solver (Roe variants, HLLC, HLLEP) returns the physical normal flux when both sides are the same state.", "quantifier": "all physical states, normals, mesh velocities and scheme options", "why_tests_cant": "continuous inputs; moving-mesh HLLC fails", "anchors": ["src/Euler/Gas.hpp: RoeFlux_IdealGas_HartenYee, HLLCFlux_IdealGas, HLLEPFlux_IdealGas, GasInviscidFlux"]}
{"id": "C42", "title": "Flux increment is the derivative of the flux", "statement": "The increment function applied to a state increment equals the directional derivative of the inviscid face flux.", "quantifier": "all states and increments", "why_tests_cant": "continuous inputs", "anchors": ["src/Euler/Gas.hpp: IdealGasUIncrement, GasInviscidFluxFacialIncrement"]}
{"id": "C43", "title": "Positivity limiting", "statement": "The compression ratio returned for a state and increment lies in [0,1] and the scaled update has internal energy at least the requested floor, or the program aborts.", "quantifier": "all states with internal energy above the floor and all increments", "why_tests_cant": "continuous inputs", "anchors": ["src/Euler/Gas.hpp: IdealGasGetCompressionRatioPressure"]}
{"id": "C44", "title": "Primitive gradient is the chain rule", "statement": "The primitive-variable gradient computed from a conservative gradient equals the derivative of the primitive variables along any curve with that conservative gradient.", "quantifier": "all states with nonzero density and all gradients", "why_tests_cant": "continuous inputs", "anchors": ["src/Euler/Gas.hpp: GradientCons2Prim_IdealGas"]}
{"id": "C45", "title": "Two-way limiters are bounded", "statement": "Each two-way limiter returns zero when the inputs have opposite signs (for those documented to do so) and otherwise a value between zero and the larger input, lying between the inputs for minmod, van Leer and WBAP; equal inputs are reproduced.  All up to the guards against division by zero (1e-200 for van Leer, 1e-50 for WBAP).", "quantifier": "all real input pairs and parameters", "why_tests_cant": "continuous inputs", "anchors": ["src/CFV/Limiters.hpp: FMINMOD_Biway, FVanLeer_Biway, FWBAP_L2_Biway, FWBAP_L2_Cut_Biway"]}
{"id": "C46", "title": "Multiway limiter", "statement": "The multi-way WBAP limiter returns zero when the centre value is zero, never leaves the interval spanned by the centre value and the candidates, reproduces its input when all candidates agree, and is odd.  All up to the guard 1e-50 against division by zero.", "quantifier": "all numbers of candidates and real values", "why_tests_cant": "continuous inputs", "anchors": ["src/CFV/Limiters.hpp: FWBAP_L2_Multiway"]}
{"id": "C47", "title": "Shape functions interpolate", "statement": "For each element type the shape functions sum to one at every parametric point, are one at their own node and zero at the others, and the first derivative tables are the derivatives of the value tables.", "quantifier": "all element types and all parametric points", "why_tests_cant": "continuous inputs", "anchors": ["src/Geom/Elements.hpp: ShapeFunc_DiNj"]}
{"id": "C48", "title": "Element face tables are consistent", "statement": "For each element type, the face node lists have the node count of the face type, are duplicate-free, and every edge of a volume element is traversed exactly twice, in opposite directions, by its faces (outward-consistent orientation).", "quantifier": "all element types, faces and edges", "why_tests_cant": "the whole finite table must be consistent; one wrong entry breaks only particular meshes", "anchors": ["src/Geom/Elements.hpp: FaceNodeList, GetFaceType, Dim_Order_NVNNNF"]}
{"id": "C49", "title": "Quadrature exactness", "statement": "The scheme selected for an order integrates every polynomial of that total degree exactly up to a small multiple of the sum of coefficient magnitudes.", "quantifier": "all polynomials up to the degree, each reference shape", "why_tests_cant": "all polynomials", "anchors": ["src/Geom/Quadrature.hpp: GetQuadratureScheme, GetQuadraturePoint, tables"]}
{"id": "C50", "title": "Bit-packed batch descriptors", "statement": "Packing two 32-bit or four 16-bit fields into a 64-bit word and reading them back returns each field, and writing one field leaves the others unchanged.", "quantifier": "all field values and words", "why_tests_cant": "2^64 values", "anchors": ["src/DNDS/ArrayDerived/ArrayEigenUniMatrixBatch.hpp, ArrayEigenMatrixBatch: UInt32PairIn64, UInt16QuadIn64"]}
{"id": "C51", "title": "Collective mesh queries agree", "statement": "A collective query about the whole mesh (all elements first order / second order) returns the same answer on every rank.", "quantifier": "all distributions of elements to ranks", "why_tests_cant": "depends on which rank holds the offending element", "anchors": ["src/Geom/Mesh.cpp: IsO1, IsO2"]}
{"id": "C52", "title": "String splitting", "statement": "Splitting a string by a separator and joining the parts with that separator restores the string, and the clean variant returns exactly the non-empty parts in order; suffix test is exact.", "quantifier": "all strings and separators", "why_tests_cant": "all strings", "anchors": ["src/DNDS/Defines.hpp: splitSString, splitSStringClean, sstringHasSuffix"]}
{"id": "C53", "title": "Split-schedule communication completes", "statement": "Under the one-by-one asynchronous strategy the pull starts every persistent request exactly once and every receive is matched, so the communication completes; the same for push.", "quantifier": "every rank count and communication pattern", "why_tests_cant": "schedules; the push variant starts the wrong requests", "anchors": ["src/DNDS/ArrayTransformer.hpp: startPersistentPull, startPersistentPush, waitPersistentPull, waitPersistentPush"]}
{"id": "C54", "title": "Elevation and bisection tables are geometrically sound and conforming", "statement": "Elevating a first order element appends one node per edge (and per quadrilateral face and hexahedron centre), at the mean of the nodes it spans, and the added nodes of a shared face do not depend on the cell from which they are computed; bisecting a second order element gives positively oriented parts that fill it exactly, match each other inside, and restrict on each face to that face's own bisection, for every variant.", "quantifier": "every element type, face, added node, part and diagonal variant", "why_tests_cant": "tests check one mesh, not every table entry and variant", "anchors": ["src/Geom/Elements.hpp: ElemElevationSpan_O1O2List, ElemO2BisectElementList, GetElemElevation_O1O2_NumNode, GetElemElevation_O1O2_NodeSpanType, GetElemElevation_O1O2_ElevatedType, GetO2ElemBisectNum, GetO2ElemBisectElem, Element::ExtractElevNodeSpanNodes, Element::ExtractO2BisectElemNodes", "src/Geom/Elements.cpp: GetStandardCoord"]}
{"id": "C55", "title": "Step size limiting of the variable step BDF", "statement": "The step size returned by the limiter of the variable step BDF integrator never exceeds the requested one nor the allowed increase, and the extrapolation weight of the old increment at that step size does not exceed the limit the positivity check permits.", "quantifier": "all histories, limits, requested step sizes and increase factors", "why_tests_cant": "continuous inputs; result of a bisection", "anchors": ["src/Solver/ODE.hpp: ImplicitVBDFDualTimeStep::LimitDt_StepPPV2", "src/Solver/Scalar.hpp: BisectSolveLower"]}
{"id": "C56", "title": "Positivity preserving BDF step solves the same equation", "statement": "When its limiters change nothing, the positivity preserving variant of the BDF step hands the solver the same residual as the plain step.", "quantifier": "all orders, histories, right-hand sides and states", "why_tests_cant": "every history; the residual can still converge to something", "anchors": ["src/Solver/ODE.hpp: ImplicitBDFDualTimeStep::StepPP, ImplicitVBDFDualTimeStep::StepPP"]}
{"id": "C57", "title": "Roe linearisation and upwinding", "statement": "The waves into which the Roe solver splits a jump between two states add up to the jump itself and, weighted by their signed speeds, to the difference of the Euler fluxes; so in flow that crosses the face faster than sound the solver returns exactly the flux of the upwind state.", "quantifier": "all pairs of physical states, normals of unit length, mesh velocities; schemes that keep supersonic eigenvalues", "why_tests_cant": "continuous inputs", "anchors": ["src/Euler/Gas.hpp: RoeFlux_IdealGas_HartenYee, RoeFluxIncFDiff, GetRoeAverage"]}
{"id": "C58", "title": "Numerical flux does not depend on the orientation of the face", "statement": "Exchanging left and right states and reversing the normal reverses the numerical flux, so what leaves one cell enters the other whichever cell the face is seen from.", "quantifier": "all pairs of states, normals, mesh velocities, schemes", "why_tests_cant": "continuous inputs; fails only for some flow directions", "anchors": ["src/Euler/Gas.hpp: RoeFlux_IdealGas_HartenYee, HLLEPFlux_IdealGas"]}
{"id": "C59", "title": "Batched Riemann solver agrees with the single-point one", "statement": "On a flat face with one mesh velocity the batched Roe solver returns at every quadrature point the flux and wave speeds of the single-point solver with the same mean states, and aborts exactly when that does at some point.", "quantifier": "all batches, states and schemes", "why_tests_cant": "continuous inputs and any number of points", "anchors": ["src/Euler/Gas.hpp: RoeFlux_IdealGas_HartenYee_Batch, RoeFlux_IdealGas_HartenYee"]}
{"id": "C60", "title": "Viscous flux", "statement": "The viscous flux carries no mass; its traction is symmetric and vanishes for rigid motion (and uniform expansion in three dimensions); its power on the velocity gradient is never negative, with or without the quadratic correction, which is the published one; the energy flux is the work of the traction plus conductivity times the normal derivative of the temperature, without the latter at an adiabatic wall.", "quantifier": "all states, gradients, normals and coefficients", "why_tests_cant": "continuous inputs", "anchors": ["src/Euler/Gas.hpp: ViscousFlux_IdealGas"]}
{"id": "C61", "title": "Limiters on coefficient vectors", "statement": "The limiters that weigh whole coefficient vectors by a norm return a combination of their candidates with nonnegative coefficients of sum at most one, reproduce a vector on which all candidates agree, and the minimum-norm variants return a vector of norm at most that of every candidate.  The norm depends only on the polynomial the coefficients describe and not on the orientation of the axes.", "quantifier": "all numbers of candidates, all coefficient values, all rotations and reflections", "why_tests_cant": "continuous inputs and unbounded candidate lists", "anchors": ["src/CFV/Limiters.hpp: FWBAP_L2_Biway_PolynomialNorm, FMEMM_Biway_PolynomialNorm, FWBAP_L2_Biway_PolynomialOrth, FWBAP_L2_Multiway_Polynomial2D, FMEMM_Multiway_Polynomial2D, FWBAP_L2_Multiway_PolynomialOrth"]}
{"id": "C62", "title": "Tables of base polynomials", "statement": "A filled table of base polynomials holds, in column j and in the documented order of rows, the value and all partial derivatives in physical coordinates of the j-th monomial in the scaled coordinates, whatever number of rows and columns is asked for.", "quantifier": "all points, scales, and numbers of rows and columns", "why_tests_cant": "continuous inputs; 333 hand-written entries and a general branch", "anchors": ["src/Geom/BaseFunction.hpp: FPolynomialFill2D, FPolynomialFill3D, diffOperatorOrderList, diffOperatorDimList, FPolynomial3D"]}
{"id": "C63", "title": "Derivatives after a linear map and across periodic boundaries", "statement": "Converting a column of derivatives by a matrix gives the derivatives of the function composed with the linear map; across a periodic boundary the converted column holds the derivatives of the transformed function at the transformed point; converting back restores the column.", "quantifier": "all functions, points, matrices, numbers of rows, periodic ids", "why_tests_cant": "continuous inputs; every function", "anchors": ["src/Geom/DiffTensors.hpp: ConvertDiffsLinMap, TransSymDiffOrderTensorV, CFVPeriodicity::TransDiValueInplace, CFVPeriodicity::TransDiValueBackInplace"]}
{"id": "C64", "title": "Base functions of a cell", "statement": "The table of base functions of a cell at a point holds the derivatives of the monomials in the local coordinates of the cell (about its centre, along its axes, scaled by its extents), less the stored moment; with the moments the solver stores every base function has zero mean over the cell by the quadrature used, up to the difference between stored and quadrature volume.", "quantifier": "all cells, points, orientation and scaling settings, quadratures", "why_tests_cant": "continuous inputs; every cell", "anchors": ["src/CFV/VariationalReconstruction.hpp: VariationalReconstruction::FDiffBaseValue", "src/CFV/VariationalReconstruction.cpp: VariationalReconstruction::ConstructBaseAndWeight"]}
{"id": "C65", "title": "Derivatives under a general change of variables", "statement": "Converting a column of derivatives by the derivatives of a map gives the derivatives of the function composed with the map; inverting the derivatives of a map gives the derivatives of the inverse map, up to third order.", "quantifier": "all maps, functions, points and orders", "why_tests_cant": "continuous inputs; every map", "anchors": ["src/Geom/DiffTensors.hpp: ConvertDiffsFullMap, DxDxi2DxiDx"]}
{"id": "C66", "title": "Inner product of derivatives", "statement": "The inner product of derivative columns of one order is the sum over all sequences of directions of the products of the derivatives, so it does not depend on the orthonormal frame.", "quantifier": "all functions, points, orders, rotations", "why_tests_cant": "continuous inputs; every function", "anchors": ["src/Geom/DiffTensors.hpp: NormSymDiffOrderTensorV"]}
{"id": "C67", "title": "Interpolation reproduces polynomials", "statement": "Interpolating a polynomial through its values at the nodes of an element gives the polynomial back at every parametric point, up to the order of the element.", "quantifier": "all element types, all polynomials up to the order, all parametric points", "why_tests_cant": "continuous inputs; every polynomial", "anchors": ["src/Geom/Elements.hpp: ShapeFunc_DiNj, Element::GetNj", "src/Geom/Elements.cpp: GetStandardCoord"]}
{"id": "C68", "title": "Interpolation agrees across faces", "statement": "On a face of an element the shape functions of the nodes of the face are those of the face element and the others vanish, so elements on the two sides of a face interpolate the same values, and place the same physical points, on it.", "quantifier": "all element types, all faces, all points of the face, all nodal values", "why_tests_cant": "continuous inputs; every pair of neighbours", "anchors": ["src/Geom/Elements.hpp: ShapeFunc_DiNj, Element::GetNj, GetFaceType, FaceNodeList, PPhysicsCoordD01Nj", "src/Geom/Elements.cpp: GetStandardCoord"]}
{"id": "C69", "title": "Integration over an element", "statement": "For every element and every order from 0 to 6, integrating a callback adds to the buffer the weighted sum of the callback's values at points inside the reference element, with positive weights, and the shape functions and derivatives handed to the callback are those of the point handed to it.", "quantifier": "all element types, all orders, all callbacks, all buffer values", "why_tests_cant": "all callbacks and all element types and orders", "anchors": ["src/Geom/Quadrature.hpp: Quadrature::Integration, GetQuadraturePoint, __TNBufferAtQuadrature"]}
{"id": "C70", "title": "Reordering follows Cuthill and McKee", "statement": "In every connected part of the graph the returned order is the reverse of a breadth-first order, parts are numbered without gaps, the reported band widths are the exact ones before and after, and vertices first reached from the same vertex are numbered by increasing degree before the reversal.", "quantifier": "every symmetric graph", "why_tests_cant": "all graphs", "anchors": ["src/Geom/CorrectRCM.hpp: CuthillMcKeeOrdering, BreadthFirstSearch", "src/Geom/SerialAdjReordering.hpp: ReorderSerialAdj_CorrectRCM"]}
{"id": "C71", "title": "One face numbering over all ranks", "statement": "When every rank holds copies of the cells that share a face with its own, building faces runs to the end on every rank and yields one global numbering: slots of cells on any ranks get the same number exactly if they are the same face, every number is used, a face belongs to the lowest rank owning one of its cells, and each rank's cell-to-face, face-to-node and face-to-cell tables give those faces under the rank's local names, for its own cells and for its copies.", "quantifier": "every distribution of every conforming mesh over any number of ranks, periodic or not, every order in which the sort leaves equal nodes", "why_tests_cant": "all meshes, all partitions, all rank counts", "anchors": ["src/Geom/Mesh.cpp: UnstructuredMesh::InterpolateFace, AdjLocal2GlobalFacial, AdjGlobal2LocalFacial", "src/DNDS/IndexMapping.hpp: OffsetAscendIndexMapping"]}
{"id": "C72", "title": "Cell neighbours are exact", "statement": "After recovering neighbours, every rank has for each of its cells the ascending list of exactly the other cells of the whole mesh, on any rank, that share a node with it; the relation is symmetric across ranks.", "quantifier": "every distribution of every mesh over any number of ranks, every iteration order of hash containers", "why_tests_cant": "all meshes, all partitions, all rank counts", "anchors": ["src/Geom/Mesh.cpp: UnstructuredMesh::RecoverCell2CellAndBnd2Cell"]}
{"id": "C73", "title": "Cells of boundary elements", "statement": "Every boundary element gets the one cell of the whole mesh that has all its nodes; an element of a periodic zone gets the two such cells, first the one lying on the side of the zone; if there are no such cells, or not that many, the call aborts.", "quantifier": "every distribution of every mesh, periodic or not, over any number of ranks", "why_tests_cant": "all meshes, all partitions, all rank counts", "anchors": ["src/Geom/Mesh.cpp: UnstructuredMesh::RecoverCell2CellAndBnd2Cell", "src/Geom/BoundaryCondition.hpp: FaceIDIsPeriodic, FaceIDIsPeriodicDonor"]}
{"id": "C74", "title": "The ghost layer and the mesh built on it", "statement": "Building the ghost layer gives each rank copies of exactly the cells of other ranks that share a node with its own and of exactly the nodes those cells have, equal to the originals; then every entry is under its local name, and the whole sequence from parts to faces runs to the end on every valid mesh and yields one face numbering.", "quantifier": "every distribution of every valid conforming mesh over any number of ranks, every iteration order of hash containers, every delivery order of messages", "why_tests_cant": "all meshes, all partitions, all schedules", "anchors": ["src/Geom/Mesh.cpp: UnstructuredMesh::BuildGhostPrimary, AdjGlobal2LocalPrimary, RecoverNode2CellAndNode2Bnd, RecoverCell2CellAndBnd2Cell, InterpolateFace"]}
{"id": "C75", "title": "Fluxes through faces are conserved", "statement": "Accumulating face fluxes gives every cell, on whatever rank, each of its faces exactly once, with one sign on one side and the other on the other, with or without OpenMP; so the sum over all cells of all ranks of volume times right-hand side is the flux through the boundary of the mesh, for every component that periodic boundaries do not turn. The reported wall sum counts every wall face once.", "quantifier": "every distribution of every conforming mesh over any number of ranks, all fluxes, volumes and zones", "why_tests_cant": "all meshes, all partitions, all field values", "anchors": ["src/Euler/EulerEvaluator_EvaluateRHS.hxx: EulerEvaluator::EvaluateRHS", "src/Euler/EulerEvaluator.hpp: UFromFace2Cell", "src/Geom/Mesh.hpp: CellIsFaceBack"]}
{"id": "C76", "title": "Implicit sweeps solve the system of the whole mesh", "statement": "The matrix-vector product, the Jacobi and symmetric Gauss-Seidel sweeps and LU-SGS all work with one matrix of the whole mesh, whatever the partition: in a sweep every cell solves its own equation with the new values of the cells of its rank already passed and the old values of all others. If the residual a preconditioner call reports is zero, what it leaves is the solution, and a solution is left as it is; if solving for the neighbours' errors shrinks them by q, each call shrinks the distance to the solution by q squared. LU-SGS is the forward and backward substitution, on one rank the factored solve.", "quantifier": "every distribution of every conforming mesh over any number of ranks, all blocks, couplings, right-hand sides and starting values", "why_tests_cant": "all meshes, partitions and field values", "anchors": ["src/Euler/EulerEvaluator.hxx: LUSGSMatrixVec, UpdateSGS, UpdateLUSGSForward, UpdateLUSGSBackward", "src/Euler/EulerSolver.hxx: doPrecondition", "src/Euler/EulerJacobian.hpp: JacobianDiagBlock"]}
{"id": "C77", "title": "Inverses of diagonal blocks stay right", "statement": "For every history of clearing, writing and inverting diagonal blocks that never writes between an inversion and the next clearing, multiplying by the inverse undoes multiplying by the block, in either order, on every cell, with full or diagonal blocks.", "quantifier": "all histories of operations, all block values", "why_tests_cant": "all histories", "anchors": ["src/Euler/EulerJacobian.hpp: JacobianDiagBlock::GetInvert, MatVecLeft, MatVecLeftInvert, clearValues, getBlock, getDiag"]}
{"id": "C78", "title": "The direct preconditioner solves the system of the whole mesh", "statement": "For every ordering and fill level the setup finishes on every rank. With the complete factorization a call solves, twice, each rank's own rows exactly with the last exchanged values of other ranks' cells; if it reports no change, what it leaves solves the system of the whole mesh, and a solution is left as it is; on one rank every call solves. An incomplete factorization solves with a regular matrix that agrees with the system on the diagonal and between neighbours. Systems with strictly dominant rows are always factorized.", "quantifier": "every distribution of every conforming mesh over any number of ranks, all orderings, fill levels, blocks, linear couplings, right-hand sides and starting values", "why_tests_cant": "all meshes, partitions and field values", "anchors": ["src/Geom/Mesh_Serial_Partition.cpp: GetCell2CellFaceVLocal, ObtainLocalFactFillOrdering", "src/Euler/EulerEvaluator.hxx: LUSGSMatrixToJacobianLU, LUSGSMatrixSolveJacobianLU", "src/Euler/EulerSolver.hxx: doPrecondition", "src/Euler/EulerJacobian.hpp: JacobianLocalLU"]}
{"id": "C79", "title": "Dominant block systems are factorized", "statement": "A block system in which every scalar row is strictly dominated by its diagonal entry is factorized without a zero pivot, with complete or incomplete factorization and every ordering; with the complete one the solve is exact.", "quantifier": "all sparsity patterns, block sizes and values", "why_tests_cant": "all patterns and continuous values", "anchors": ["src/Solver/Direct.hpp: LocalLUBase::InPlaceDecompose, Solve", "src/Euler/EulerJacobian.hpp: JacobianLocalLU::InvertDiag"]}
{"id": "C80", "title": "Reconstruction is least squares over the faces", "statement": "The reconstruction coefficients computed for a cell, applied to what is on the other side of its faces, give exactly the one polynomial with the cell's mean that differs least, in value and in all derivatives with the weights and lengths of the faces, from the neighbours' polynomials and the boundary values, also through rotating periodic boundaries. A polynomial that agrees with all of them is not changed. The cell's matrix is symmetric and has an inverse exactly if no polynomial of mean zero is invisible on the faces; one point of one face that weighs every derivative is enough.", "quantifier": "all cells, faces, quadrature rules with nonnegative weights, polynomial degrees up to 3, face weights, periodic transformations, boundary callbacks, states of the neighbours; two and three dimensions; scaled and anisotropic functional", "why_tests_cant": "continuous inputs; all geometries and states", "anchors": ["src/CFV/VariationalReconstruction.cpp: ConstructRecCoeff", "src/CFV/VariationalReconstruction.hpp: FFaceFunctional, GetFacePointFromCell, GetIntPointDiffBaseValue", "src/CFV/VariationalReconstruction_Reconstruction.hxx: GetBoundaryRHS, DoReconstructionIter"]}
{"id": "C81", "title": "Reconstruction iterations solve the system of the whole mesh", "statement": "The iterations of the reconstruction work on one system of the whole mesh, whatever the partition: the recorded increment is its residual, an iteration takes the relaxation factor times the residual off, at the values each cell sees, and a step leaves the coefficients as they are exactly when they solve the system. Then the polynomial of every cell is the least squares fit to its neighbours and the boundary values, and polynomials that agree with all neighbours solve it. If one step shrinks errors by q, k steps shrink the distance to the solution by q to the k.", "quantifier": "every distribution of every conforming mesh over any number of ranks, periodic or not, all coefficients, mean values, boundary conditions, starting values and numbers of steps, both modes", "why_tests_cant": "all meshes, partitions and field values", "anchors": ["src/CFV/VariationalReconstruction_Reconstruction.hxx: DoReconstructionIter", "src/Euler/EulerSolver.hxx: doReconstruction", "src/CFV/VariationalReconstruction.cpp: ConstructRecCoeff"]}
{"id": "C82", "title": "Linear solvers of the reconstruction see its linear part", "statement": "The product used by the linear solvers of the reconstruction is the linear part of the residual of the whole mesh: taking a difference off the coefficients takes its product off the residual, so solving for the residual and taking the result off gives the solution. A forward or backward sweep passes every cell with the new values of the cells of its rank already passed, and leaves a difference alone exactly when the relaxation factor times the product maps it to the right side.", "quantifier": "every distribution of every conforming mesh over any number of ranks, all coefficients, differences, right-hand sides and both directions", "why_tests_cant": "all meshes, partitions and field values", "anchors": ["src/CFV/VariationalReconstruction_Reconstruction.hxx: DoReconstructionIterDiff, DoReconstructionIterSOR", "src/Euler/EulerSolver.hxx: doReconstruction"]}
{"id": "C83", "title": "Limited reconstructions are physical", "statement": "Whatever the reconstruction of a cell: if the mean has density and pressure at the floors, limiting it returns, and at every point of the cell and its faces the density is at least the floor of the density and the internal energy at least the floor of the pressure. The result is the reconstruction up to some degree and one fraction between zero and one of the rest, only as far down as needed; the mean is not changed, and a reconstruction that is good already is left alone. On every rank the number of limited cells and the least factor are those of all ranks.", "quantifier": "all reconstructions, means, points, degrees 1 to 3, two and three dimensions, any number of ranks and cells, absolute and relaxed floors", "why_tests_cant": "continuous inputs; every reconstruction", "anchors": ["src/Euler/EulerEvaluator.hxx: EvaluateURecBeta", "src/CFV/VariationalReconstruction.hpp: DownCastURecOrder", "src/Euler/Gas.hpp: IdealGasGetCompressionRatioPressure"]}
{"id": "C84", "title": "Increments keep the gas physical", "statement": "Whatever increment the solver proposes for a cell with valid mean: the factor found lies between zero and one, and the density and pressure after the step keep at least the wanted share of their distance to the floors, so the mean is valid again and no check stops the solver, after any number of steps; the variables of the turbulence model stay not negative. An increment that is safe by itself is taken whole. All ranks agree on the least factor and the number of reduced cells.", "quantifier": "all increments, all histories of increments, any number of ranks and cells, all relaxation factors in [0, 1]", "why_tests_cant": "continuous inputs; all histories", "anchors": ["src/Euler/EulerEvaluator.hxx: EvaluateCellRHSAlpha, AssertMeanValuePP", "src/Euler/EulerEvaluator.hpp: CompressInc, AddFixedIncrement, CompressRecPart", "src/Euler/EulerSolver.hxx: fincrement"]}
{"id": "C85", "title": "Renumbering cells keeps the mesh", "statement": "Reordering the cells of every rank returns on every valid mesh and leaves the same mesh under new cell numbers: every rank keeps its cells, with their types, nodes and periodic marks, its boundary elements, its ghost layer and its nodes; neighbours and boundary cells are those of before under the new numbers, on every rank and in the copies. The new numbers of a rank are a reverse breadth first order of its cells, and the band widths reported are the largest over the ranks before and after. Faces can be built afterwards and are one numbering of the faces of the mesh.", "quantifier": "every distribution of every valid conforming mesh over any number of ranks, connected or not, every order of hash containers and messages", "why_tests_cant": "all meshes, all partitions, all schedules", "anchors": ["src/Geom/Mesh.cpp: UnstructuredMesh::ReorderLocalCells", "src/Geom/Mesh_Serial_Partition.cpp: GetCell2CellFaceVLocal, ObtainLocalFactFillOrdering", "src/Geom/CorrectRCM.hpp: CorrectRCM", "src/Euler/EulerSolver_Init.hxx: ReadMeshAndInitialize"]}
{"id": "C86", "title": "Time steps are safe", "statement": "Every rank gets, for each of its cells, the time step of the whole mesh: CFL times volume over the sum of wave speeds through its faces, the same through rotating periodic boundaries and whatever the partition; without local steps all cells of all ranks get the smallest one, and all ranks agree on it. With that step and CFL at most one, a first-order explicit step leaves density and pressure of every cell positive, if no wave behind a boundary is faster than the ones in front of it.", "quantifier": "every distribution of every conforming mesh over any number of ranks, periodic or not, moving or not, all physical states, all nonnegative viscosities", "why_tests_cant": "continuous inputs; all meshes and partitions", "anchors": ["src/Euler/EulerEvaluator_EvaluateDt.hxx: EvaluateDt", "src/Euler/EulerEvaluator_EvaluateRHS.hxx: EvaluateRHS", "src/Euler/EulerEvaluator.hpp: UFromCell2Face"]}
{"id": "C87", "title": "Elevation to order two gives one mesh", "statement": "Elevating a mesh of order one to order two returns on every rank and leaves the same cells with the same nodes and, behind them, one new node for every edge, quadrilateral face and hexahedron: two cells, on whatever ranks, get the same new node exactly if it lies between the same nodes, new nodes are numbered without gaps, belong to the rank of the first cell that has them and are in the middle of the nodes they lie between, which every cell sees there also across periodic boundaries. Boundary elements become the faces of order two they were part of, neighbours and boundary cells are those of the new mesh, and the new mesh goes through the later stages.", "quantifier": "every distribution of every valid conforming mesh of order one over any number of ranks, all element types, periodic or not, all positions", "why_tests_cant": "all meshes, all partitions, continuous positions", "anchors": ["src/Geom/Mesh_Elevation.cpp: UnstructuredMesh::BuildO2FromO1Elevation", "src/Geom/Elements.hpp: GetNumElev_O1O2, ExtractElevNodeSpanNodes, ObtainElevNodeSpan, ObtainO2Elem", "src/Geom/PeriodicInfo.hpp: GetCoordByBits, GetCoordBackByBits"]}
{"id": "C88", "title": "Vectors of all ranks", "statement": "Whatever sequence of vector operations a solver performs, choosing each by the results so far: the vectors of all ranks are those the same operations give on vectors of the whole mesh, scalar products, norms and minima are those of the whole vectors and the same on all ranks, whatever the partition and number of ranks; copies of other ranks' rows are up to date after an exchange and stay so as long as all arguments of an operation have up-to-date copies.", "quantifier": "all programs of any length, all partitions, all values", "why_tests_cant": "all histories of operations and all partitions", "anchors": ["src/Euler/Euler.hpp: ArrayDOFV, ArrayRECV, setConstant, addTo, operator+=, operator-=, operator*=, operator/=, norm2, dot, min, componentWiseNorm1"]}
{"id": "C89", "title": "Averages over time", "statement": "After any history of additions the averaged field is, in every entry of every cell, the mean of the fields added weighted with their time steps, and of the average at the start weighted with its time; averaging started at time zero gives values between the least and the largest ones added, whatever the array held before.", "quantifier": "all histories, all step sizes that are not negative, all fields", "why_tests_cant": "all histories; continuous inputs", "anchors": ["src/Euler/EulerEvaluator.hxx: EulerEvaluator::TimeAverageAddition"]}
{"id": "C90", "title": "Norms of residuals are those of the mesh", "statement": "The norms reported for a residual or for the error of a reconstruction are the one, two or maximum norms over all cells, or quadrature points, of all ranks, weighted with volumes if asked for, whatever the partition, also if ranks have no cells.", "quantifier": "all fields, volumes that are not negative, any number of ranks", "why_tests_cant": "continuous inputs, all partitions", "anchors": ["src/Euler/EulerEvaluator.hxx: EulerEvaluator::EvaluateNorm, EvaluateRecNorm"]}
{"id": "C91", "title": "Smoothed time steps", "statement": "Smoothing the local time steps any number of times gives every cell, on whatever rank, the step that smoothing over the whole mesh gives: no step gets longer, none is longer than the mean over the faces of the steps on the two sides, and the least step of the mesh stays the least step; so the pseudo time steps of a solver do not depend on the partition and stay within those allowed. Steps are left alone exactly if no cell has a longer step than its neighbours on average.", "quantifier": "every distribution of every conforming mesh over any number of ranks, all steps, any number of passes", "why_tests_cant": "continuous inputs; all meshes and partitions", "anchors": ["src/Euler/EulerEvaluator.hxx: EulerEvaluator::MinSmoothDTau", "src/Euler/EulerSolver.hxx: fdtau"]}
{"id": "C92", "title": "Boundary conditions of faces", "statement": "Faces get the boundary zones of the boundary elements on all ranks alike: on every rank that holds a face, own or ghost, its zone is that of the boundary element on the side of its first cell, and 0 if there is none, whatever the order of the elements and wherever the two sides of a periodic face are; every element with a boundary condition finds its face and the face has that element. If every face with one side has an element with a boundary condition, the check of the faces passes on all ranks.", "quantifier": "every distribution of every conforming mesh over any number of ranks, all boundary elements on the ranks of their cells, any order of the elements", "why_tests_cant": "all meshes, partitions and orders of boundary elements", "anchors": ["src/Geom/Mesh.cpp: UnstructuredMesh::InterpolateFace", "src/Geom/Mesh.cpp: UnstructuredMesh::AssertOnFaces", "src/Geom/BoundaryCondition.hpp: FaceIDIsExternalBC, FaceIDIsInternal"]}
{"id": "C93", "title": "Boundary mesh", "statement": "Building the boundary mesh never stops and gives the boundary of the whole mesh: its nodes are the nodes of the boundary elements of all ranks, each once, numbered in the order they have in the mesh and owned by the ranks that own them there; on every rank the maps between the nodes of the two meshes are inverse to each other and lead to the same node, coordinates are those of the mesh, and there is one cell for every boundary element that is not periodic, on the rank of the element, with its zone and, in order, the nodes and periodic bits of its face.", "quantifier": "every distribution of every conforming mesh over any number of ranks, all boundary elements on the ranks of their cells, any order of the elements, any coordinates", "why_tests_cant": "all meshes, partitions and orders of boundary elements", "anchors": ["src/Geom/Mesh.cpp: UnstructuredMesh::ConstructBndMesh", "src/Geom/Mesh.hpp: UnstructuredMesh"]}
{"id": "C94", "title": "Boundary values", "statement": "The outer state made for a boundary face is the one its zone describes, in the inertial frame or in one that rotates: far fields and pressure outlets take each quantity from the side the waves come from, with positive density and pressure, and leave a free stream as it is; slip walls and symmetry planes mirror the velocity relative to the wall; no-slip walls make the mean velocity that of the wall and the mean turbulence variables those of the wall; outlets copy; inlets give the prescribed state, or the prescribed total pressure, total temperature and direction.", "quantifier": "every gas with gamma above one, every state of positive density (and pressure, for far fields), every prescribed state, direction of the face, rotation of the frame, angle of attack, anchor and profile", "why_tests_cant": "real-valued states and directions; each branch depends on the speed of the flow", "anchors": ["src/Euler/EulerEvaluator_EvaluateDt.hxx: generateBoundaryValue", "src/Euler/EulerEvaluator.hpp: TransformURotatingFrame, TransformURotatingFrame_ABS_VELO, GetFaceVGrid"]}
{"id": "C95", "title": "Walls let nothing through", "statement": "At a face of a slip wall, a symmetry plane or a no-slip wall the flux computed from the inner state and the outer state made for it carries no mass, and of energy exactly the work the wall does on the gas (none for a wall at rest); the force of a slip wall is normal to it.", "quantifier": "every gas with gamma above one, every inner state and mean of positive density and pressure, every direction of the face and velocity of the mesh, every variant of the Riemann solver and entropy fix", "why_tests_cant": "real-valued states; an asymmetry of a solver shows only for some directions and speeds", "anchors": ["src/Euler/Gas.hpp: RoeFlux_IdealGas_HartenYee, RoeFlux_IdealGas_HartenYee_Batch, HLLCFlux_IdealGas, HLLEPFlux_IdealGas", "src/Euler/EulerEvaluator_EvaluateDt.hxx: generateBoundaryValue"]}
{"id": "C96", "title": "Boundary integrals, anchors and profiles", "statement": "What is recorded about the flow at a boundary zone is that of the whole zone, however it is spread over ranks, and the same on all ranks: integrals are the sums over all faces; the anchor is the state at a nearest point of the zone; a profile over the radius has in each interval all faces in proportion to the radii they share with it, loses nothing, and gives a value between the least and greatest of the faces at every radius; the pressure rise of radial equilibrium starts at zero and grows as the turning gas needs.", "quantifier": "every number of ranks and distribution of faces, every set of faces with distinct radii, number of intervals, even or clustered nodes, every radius asked for", "why_tests_cant": "any distribution over ranks; real-valued radii at or between nodes", "anchors": ["src/Euler/EulerBC.hpp: IntegrationRecorder, AnchorPointRecorder, OneDimProfile", "src/Euler/EulerEvaluator.hpp: updateBCAnchors", "src/Euler/EulerEvaluator.hxx: updateBCProfiles, updateBCProfilesPressureRadialEq", "src/Geom/Grid.hpp: GetTanhDistributionBilateral"]}
{"id": "C97", "title": "Boundary zones are as configured", "statement": "A list of boundary zones in the configuration is read so that every zone has its own number, in the order of the list, found by its name, and type, value, further values and options are those listed, options not listed being zero; a name used twice, or one of the default names, is refused. What is written into the output configuration describes the same zones, and reading and writing it again changes nothing.", "quantifier": "every list of zones of all types with any values and options, every number of variables, every order in which the hash map of names is gone through", "why_tests_cant": "any number of zones; unspecified order of the hash map", "anchors": ["src/Euler/EulerBC.hpp: BoundaryHandler, from_json, to_json, RenewID2name, GetIDFromName, GetNameFormID, GetTypeFromID, GetValueFromID, GetValueExtraFromID, GetFlagFromID, GetFlagFromIDSoft"]}
{"id": "C98", "title": "Partitioned meshes and restarts are restored", "statement": "What all ranks have written of a distributed array, a mesh or a restart is restored when the same number of ranks reads it: all owned rows and ghosts, the mappings to ghosts, numbers of rows of matrices, all adjacencies and periodic sides of a mesh; files of another number of ranks or another dimension are refused. The name kept of a restart leads every rank to its own file. A restart of another solver changes the listed components in all cells and no others.", "quantifier": "every number of ranks, distribution of rows and ghosts, row widths and layouts, objects read into, names, lists of components", "why_tests_cant": "any number of ranks and rows; collective reading", "anchors": ["src/DNDS/ArrayPair.hpp: WriteSerialize, ReadSerialize", "src/DNDS/ArrayDerived/ArrayEigenMatirx.hpp: WriteSerializer, ReadSerializer, MatRowSize", "src/Geom/Mesh.cpp: UnstructuredMesh::WriteSerialize, UnstructuredMesh::ReadSerialize", "src/Geom/PeriodicInfo.hpp: Periodicity::WriteSerializer, Periodicity::ReadSerializer", "src/Euler/EulerSolver.hpp: PrintRestart, ReadRestart, ReadRestartOtherSolver"]}
{"id": "C99", "title": "The limiter procedures give the same on every partition, keep polynomials and never steepen", "statement": "Both limiter procedures over the mesh return and give, in own and ghost cells, coefficients that do not depend on how cells are distributed to ranks. Cells that count as smooth keep theirs. The result is the multi-way limiter of what the faces propose, from the highest degree to the lowest, in characteristic variables. Where all neighbours have the cell's polynomial it is kept up to the guard of the limiter (one procedure: any degree, the other: linear fields), and with minmod no coefficient grows or changes its sign.", "quantifier": "every mesh, number of ranks, distribution, order, dimension, two-way limiter, coefficients and characteristic variables", "why_tests_cant": "any mesh, distribution and coefficients", "anchors": ["src/CFV/VariationalReconstruction_LimiterProcedure.hxx: DoLimiterWBAP_C, DoLimiterWBAP_3", "src/CFV/VariationalReconstruction.hpp: GetMatrixSecondary", "src/CFV/Limiters.hpp"]}
{"id": "C100", "title": "The limiter of the Euler solver works on the characteristic variables of the mean state", "statement": "Between two states of a gas and with a normal of length one, the two transformations the solver gives to the limiter return and undo each other. What a single characteristic variable stands for is an eigenvector of the derivative of the flux along the normal at the state halfway between the sides, moving with v.n - a, v.n or v.n + a. Variables behind those of the gas are left alone. With them the limiters keep polynomials.", "quantifier": "every pair of states with positive density and pressure, unit normal in the plane or in space, gamma > 1, batch of coefficients, grid velocity, number of further variables", "why_tests_cant": "real states and all directions of the normal", "anchors": ["src/Euler/EulerSolver.hxx: fML, fMR", "src/Geom/Geometric.hpp: NormBuildLocalBaseV", "src/Euler/Gas.hpp: IdealGas_EulerGasLeftEigenVector, IdealGas_EulerGasRightEigenVector"]}
{"id": "C101", "title": "The smoothness indicators measure jumps between the polynomials of neighbouring cells", "statement": "Both procedures return on all ranks and give every cell a number that depends neither on the number of ranks nor on the distribution of the cells: the square of the order times the root of the largest, over the variables looked at, of the jumps on the faces of the cell relative to the means. The first one takes values and derivatives, the second one the values after a conversion. The number is not negative, zero where the neighbours go on with the polynomial of the cell (the limiter then leaves the cell exactly as it is) and positive where a value jumps at a face. With the conversion the Euler solver hands over, only the pressure counts: contact discontinuities are not seen, and states without a positive density do not stop the program.", "quantifier": "every mesh and distribution, polynomials up to the third degree in the plane and in space, coefficients and means, face weights, areas and quadrature, variables looked at", "why_tests_cant": "all meshes, states and distributions", "anchors": ["src/CFV/VariationalReconstruction_LimiterProcedure.hxx: DoCalculateSmoothIndicator, DoCalculateSmoothIndicatorV1", "src/CFV/VariationalReconstruction.hpp: FFaceFunctional, GetIntPointDiffBaseValue", "src/Euler/EulerSolver.hxx: the FPost of DoCalculateSmoothIndicatorV1"]}
{"id": "C102", "title": "The parallel VTKHDF file shows the mesh and the fields", "statement": "Preparing the output and writing the file succeeds on every mesh, periodic or not, however cells and nodes are distributed over the ranks. Every cell appears once, in the order of the global numbers, with the VTK type of its shape and order and with its points in the order VTK prescribes for that type. Each point of a cell lies where the cell sees its node: on a periodic mesh a node has one point of its own and one more for every periodic mark under which some cell, on any rank, sees it, carried there by the translations and rotations, and no other points. Offsets, connectivity and the counts agree with each other; every data array holds the value of the cell, and for each point the value of the node it comes from.", "quantifier": "every mesh of the supported element types, periodic marks and transformations, distribution of cells and nodes over any number of ranks, data arrays and writing rank", "why_tests_cant": "all meshes, marks and distributions", "anchors": ["src/Geom/Mesh_Serial_BuildCell2Cell.cpp: RecreatePeriodicNodes, BuildVTKConnectivity", "src/Geom/Elements.hpp: ToVTKVertsAndData", "src/Geom/Mesh_Plts.cpp: H5_WriteDataset, PrintParallelVTKHDFDataArray"]}
{"id": "C103", "title": "Cutting a second order mesh gives a conforming first order mesh", "statement": "Cutting the elements of a second order mesh into first order ones succeeds on every rank. Every cell is replaced by its parts, which keep its zone and see each of their nodes where the cell sees it, also across periodic boundaries; tetrahedra and pyramids are cut along a shortest of their inner diagonals. Every boundary element is replaced by its parts with its zone, and no node is added or moved. If no face was open between the cells before, none is open afterwards: every face of every part is met by a face of another part, possibly on another rank and possibly cut from another kind of cell, with the same nodes in the opposite sense, or is one of the new boundary elements, and every new boundary element is a face of a part. This holds in particular for meshes obtained by elevating a first order mesh.", "quantifier": "every second order mesh of the supported element types, periodic or not, positions of the nodes and distribution over any number of ranks", "why_tests_cant": "all meshes, positions and distributions", "anchors": ["src/Geom/Mesh_Elevation.cpp: BuildBisectO1FormO2", "src/Geom/Elements.hpp: GetO2ElemBisectVariant, ExtractO2BisectElemNodes", "src/Geom/Mesh.hpp: GetCoordsOnCell, CellIndexGlobal2Local_NoSon"]}
{"id": "C104", "title": "The driver of the angle of attack finds the angle of a given lift", "statement": "After any history of calls, the driver changes the angle exactly when it has been started, at least the configured number of lifts has been given since the last change, and the last ones are steady. The new angle is the old one plus the missing lift over the slope, relaxed: towards the target and by a bounded amount; the slope is that of the line through the last change and now within fixed bounds. For a flow whose lift is linear in the angle the error of the lift decreases by a fixed factor with every change, and the angle stays a number. It reports convergence when the last lifts, as many as configured, were all within the configured distance of the target and after the last change of the angle. Lift and drag are the components of the force across and along the inflow.", "quantifier": "every sequence of iteration numbers and lifts given to the driver, all settings, every force and angle", "why_tests_cant": "histories are unbounded, and lifts, angles and settings are real numbers", "anchors": ["src/Euler/CLDriver.hpp: CLDriver, CLDriverSettings", "src/Geom/Geometric.hpp: RotZ, RotY", "src/Euler/EulerEvaluator.hpp: CLDriverGetIntegrationUpdate"]}
{"id": "C105", "title": "Rotations are rigid, and a mesh that is turned and scaled keeps its periodicity", "statement": "The rotation matrices about the axes of the coordinates and about any vector are proper rotations that keep their axis; rotations about the same axis add their angles, and the matrix of a vector multiplies as the cross product. Periodic rotations configured by angles are proper. When the mesh is turned, scaled and rectified at the start, every node and every periodic image of a node moves in the same way, in the mesh and in its boundary mesh: a cell sees across a periodic boundary the moved image of the node it saw before, and distances are multiplied by the scale.", "quantifier": "every angle, axis, mesh, periodic transformation, set of periodic marks, rotation, scale and rectification", "why_tests_cant": "angles, axes and coordinates are real numbers, and the transformations may be combined in all ways", "anchors": ["src/Geom/Geometric.hpp: RotX, RotY, RotZ, RotateAxis, CrossVecToMat, CrossMatToVec", "src/Euler/EulerSolver_Init.hxx: ReadMeshAndInitialize", "src/Geom/PeriodicInfo.hpp: Periodicity", "src/Geom/Mesh.hpp: TransformCoords"]}
{"id": "C106", "title": "Sources and far field agree in a rotating frame", "statement": "In a rotating frame the momentum of a far field that is uniform in the inertial frame changes exactly as the source of momentum says, for every axis, rate and time. Sources of momentum change the energy by their work only. The Jacobian of the source is minus its derivative. The cylindrical frame at a point is a proper rotation along the radius, the motion and the axis, and the frame moves the point with the rate of rotation times its distance from the axis.", "quantifier": "every axis, center, rate of rotation, time, state and point, in two and three dimensions", "why_tests_cant": "axes, times and states are real numbers", "anchors": ["src/Euler/EulerEvaluator_EvaluateDt.hxx: source, generateBoundaryValue", "src/Euler/EulerEvaluatorSettings.hpp: FrameConstRotation", "src/Euler/EulerEvaluator.hpp: GetFaceVGrid", "src/Geom/Geometric.hpp: RotateAxis, ToThreeDim"]}
{"id": "C107", "title": "Inner nodes follow the curved boundary by interpolation", "statement": "When a mesh is made quadratic, nodes with a displacement move by it, fixed nodes stay, and every other node near the boundary moves by the one sum of radial functions that takes the displacements of the boundary points nearest to it. The result does not depend on where the origin lies. Compact kernels vanish from their radius on, so nodes beyond it stay. With the polynomial part affine displacements are met everywhere.", "quantifier": "every kernel, radius, number and place of nodes and displacements, and every correct linear solver", "why_tests_cant": "places and displacements are real numbers and their number is not bounded", "anchors": ["src/Geom/RadialBasisFunction.hpp: FRBFBasis, KernelIsCompact, RBFCPC2, RBFInterpolateSolveCoefs, RBFInterpolateSolveCoefsNoPoly", "src/Geom/Mesh_Elevation_SmoothSolver.cpp: ElevatedNodesSolveInternalSmooth"]}
{"id": "C108", "title": "Points in the middle of curved edges and faces", "statement": "When a surface is made quadratic, the point in the middle of an edge is the middle of the cubic curve through its ends whose tangents are orthogonal to the normals there, or of the quadratic one where only one end has a normal. It does not depend on the direction of the edge, nor on the length and side of the normals; flat surfaces stay flat; moving the surface takes the point along. The point in the middle of a face does not depend on its first corner or orientation.", "quantifier": "every pair of ends, four corners and normals, and every rigid motion", "why_tests_cant": "coordinates and normals are real numbers", "anchors": ["src/Geom/Mesh_Elevation.cpp: HermiteInterpolateMidPointOnLine2WithNorm, HermiteInterpolateMidPointOnQuad4WithNorm"]}
{"id": "C109", "title": "The isentropic vortices solve the Euler equations", "statement": "The fields that the program starts from and compares with are exact: at every point inside a period the derivatives of the vortex and of its fluxes exist and balance, the entropy is one everywhere, the density is positive, the moving vortices repeat in space and time and are carried along the diagonal with the flow.", "quantifier": "every ratio of heats, strength of the vortex below the bound, point and time", "why_tests_cant": "points, times and strengths are real numbers, and the claim is about derivatives", "anchors": ["src/Euler/SpecialFields.hpp: IsentropicVortex10, IsentropicVortex30, IsentropicVortexCent", "src/DNDS/Defines.hpp: float_mod"]}
{"id": "C110", "title": "The lift comes from the force on the named boundaries", "statement": "The lift and drag that steer the angle of attack are computed from the force on the boundaries that the user named for it: every face of these boundaries, on whatever rank, counts once and no other face counts; the result does not depend on earlier evaluations or on the distribution over ranks.", "quantifier": "every table of boundary zones, list of named zones, set of faces and fluxes, distribution over ranks and earlier state", "why_tests_cant": "meshes, fluxes and distributions are unbounded, and the sum must be right for every choice of named zones", "anchors": ["src/Euler/EulerEvaluator.hpp: CLDriverGetIntegrationUpdate, cLDriverBndIDs", "src/Euler/EulerEvaluator_EvaluateRHS.hxx: fluxWallSum, bndIntegrations", "src/Euler/EulerBC.hpp: IntegrationRecorder"]}
{"id": "C111", "title": "Nodes of symmetry planes are moved onto them", "statement": "After the mesh is set up, every node of a boundary element of a symmetry zone with a plane lies on this plane, on every rank that has the node; other nodes and coordinates do not move, and all copies of a node agree.", "quantifier": "every mesh, table of zones, number of ranks and distribution of cells over ranks", "why_tests_cant": "whether a node moves depends on which rank owns it, so that a test on one partition says nothing about another", "anchors": ["src/Euler/EulerSolver_Init.hxx: rectifyOpt, coords.trans.pullOnce", "src/Geom/Mesh.cpp: nodePartition, bndPartition", "src/Euler/EulerBC.hpp: GetFlagFromID"]}
{"id": "C112", "title": "Viscosity is positive and bounded", "statement": "The viscosity of the gas is that of the chosen law, positive and, by Sutherland's law, rising with temperature; turbulent viscosity is positive and bounded for every value of the turbulent variables, the shear stress it makes is at most two thirds of the turbulent energy, and it and the sources of turbulence are the same in all frames that move with constant velocity; the sources act on the time scale of the local turbulence.", "quantifier": "every gas, state with positive density, gradients and values of turbulent variables", "why_tests_cant": "states and gradients are real numbers without bound", "anchors": ["src/Euler/EulerEvaluator.hpp: muEff, getMuTur", "src/Euler/RANS_ke.hpp: GetMut_RealizableKe, GetVisFlux_RealizableKe, GetSource_RealizableKe, GetMut_SST, GetVisFlux_SST, GetMut_KOWilcox"]}
{"id": "C113", "title": "Sources of the k-omega models are limited", "statement": "In both k-omega models turbulent energy is made at a rate that is positive and at most twenty times dissipation, for every gradient; without gradients the specific dissipation decays by its law; the rates handed to the implicit scheme are positive; the sources are the same in all frames that move with constant velocity; all coefficients of the shear stress transport model are blended between the two models it joins.", "quantifier": "every state with positive density, gradients and values of turbulent variables", "why_tests_cant": "states and gradients are real numbers without bound", "anchors": ["src/Euler/RANS_ke.hpp: GetSource_SST, GetSource_KOWilcox"]}
{"id": "C114", "title": "The Spalart-Allmaras source keeps its variable in bounds", "statement": "A negative turbulent variable rises towards zero whatever the velocity gradients; where the variable vanishes with its gradient it has no source; the modified rotation stays at least a tenth of the rotation and its branches meet; production is not negative once the variable reaches the viscosity of the gas, with the correction for rotation too; the wall function is bounded; the variable diffuses with a positive coefficient; the rate handed to the implicit scheme is positive; the source is the same in all frames that move with constant velocity.", "quantifier": "every state with positive density, gradients, distance to the wall and value of the turbulent variable", "why_tests_cant": "states and gradients are real numbers without bound", "anchors": ["src/Euler/RANS_ke.hpp: GetSource_SA"]}
