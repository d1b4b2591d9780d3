# Formal model of OpenMS: design

Source: `/repo` (lanl/OpenMS, pinned).  The model is in Lean 4 under
`lean/Verif`.  The Python code was read as text and never executed.

## Layout

* `Verif/Model/*.lean`: definitions that mirror the code, function by
  function.  Every definition cites file and lines and says where it is
  simplified.
* `Verif/Lemmas/*.lean`: helper lemmas, not part of any claim.
* `Verif/Props/*.lean`: property theorems.  Each file begins with a small
  specification written without the model's helpers.  Each theorem has a
  concrete example next to it that meets its hypotheses.
* `MANIFEST.json`: property id, status, theorem names.
* `seeded/LOG.jsonl`: mutation tests of the theorems.

## Trusted base

* The Lean 4.33.0 kernel and the Mathlib statements used in the theorem
  statements (reals, complex numbers, finite sums, matrices, derivatives,
  interval integrals).
* Axioms: only `propext`, `Classical.choice`, `Quot.sound`.  No own axiom, no
  `sorry`, no `native_decide`, no `bv_decide`.  `Verif/Axioms.lean` prints the
  axioms of the property theorems at build time; `AXIOMS.md` lists them theorem
  by theorem.
* The translation from Python to Lean, done by hand.  Conventions:
  * Floating point numbers are modelled as elements of a linear ordered field
    (so the theorems apply to exact rationals and reals), or as `ℝ`/`ℂ` when
    `sqrt`, `exp`, `cos` or derivatives are needed.  Rounding, overflow and NaN
    are **not** modelled, except where a comparison with NaN decides a branch
    (stated at the definition).
  * Arrays are lists or functions on `Fin n`.  Shapes that make numpy raise are
    modelled as an error value where a property talks about them.
  * Random numbers are explicit inputs (a list or a function), so "for every
    random stream" is a quantifier.  Expectations are integrals over `[0,1]`.
  * Exceptions are values of type `Except String _` / `Option`.
  * Library routines with a contract but no fixed result (`argsort`, `argmax`,
    QR, SVD, `eigh`, `fsolve`) are relations: the theorems hold for every result
    that meets the contract.
  * Averages over auxiliary fields are integrals with the standard normal
    density over all field values.
  * Operators on the boson space are matrices on occupation numbers, or elements
    of an arbitrary algebra with the commutation relations.  Operators on the
    electrons are matrices on functions from electrons to orbitals.
  * The coupled-cluster equations are programs of `numpy.einsum` lines.  The model
    (`Model/QedccRef`, `QedccSingle`, `QedccOpt`) repeats the strings and
    coefficients of the code; `ein%` (`Model/EinsumSyntax`) turns a string into
    letters when the file is compiled, and `Model/Einsum` gives the meaning of a
    program over any commutative ring with the rationals.  The search for the
    certificates (`certs%`, `Lemmas/EinsumSearch`) is not trusted: the certificates
    are checked by the kernel (`check_sound` in `Lemmas/Einsum`).
    Likewise the elaborator in `Lemmas/EinsumStage` runs compiled code
    (`evalExpr`) only to find the literal data of each step; every step is a lemma
    whose proof is evaluated by the kernel, and no axiom about compiled code enters.
    `myqedcc_equations_opt.py` also has copies of the unoptimised functions
    (L121-372, L606-2250), which nothing calls and which are not modelled.
  * MPI: a run on `s` processes is a function `Fin s → local state`;
    `allreduce` is the sum over `Fin s`.

## Not modelled

Integral evaluation (pyscf, libcint), numpy/BLAS/torch internals, file and
terminal output, timing, the C++ directory
`tensor++`, the interfaces to the Maxwell solver (the C code of the solver is
modelled only where cited), and modules that are stubs (`vmc`, `vqs`, `gpbc`, `tdnegf`,
`ga_dft`, `cavity`).  Convergence of iterative solvers as a numerical fact is not
a claim; only what the drivers report is.

## Modelled code

Line ranges cited in the model files.  A range can be a whole function of which
only the parts named in the comments are modelled.  Code outside these ranges is
not modelled.

| model | code (under `openms/`) |
|-------|------|
| `AfqmcIntegrals` | `lib/boson.py` 257-259, 336-338, 1914-1923; `qmc/afqmc.py` 385-431, 438-466 |
| `Aggregates` | `models/aggregates.py` 42-80, 126, 178-205, 208-271, 275-296 |
| `AufbauOcc` | `gwf/ga_local.py` 75-105; `gwf/ga_sband.py` 146-176 |
| `Bilinear` | `qmc/tools.py` 192-293 |
| `BilinearStep` | `qmc/propagators.py` 1419-1482, 1819 |
| `BosonBuild` | `qmc/bafqmc.py` 29-30, 32-34; `qmc/propagators.py` 305, 847-895, 898-901 |
| `BosonInit` | `qmc/trial.py` 606-620, 1329-1331 |
| `BosonJK` | `lib/boson.py` 1024-1049, 1754-1825, 2016-2023 |
| `BosonStart` | `qmc/qmc.py` 455-460; `qmc/trial.py` 606-620 |
| `CcIntegrals` | `lib/boson.py` 1407-1436, 1542, 1914-1923, 1926-1949, 1952-1983, 2034-2053, 2064-2091, 2094-2106, 2109-2138, 2141-2194, 2198-2208, 2211-2226, 2229-2257; `lib/ov_blocks.py` 6-20; `mqed/ccsd.py` 161; `mqed/qedhf.py` 576-595 |
| `Ccsd` | `mqed/ccsd.py` 54-64, 66-77, 79-93, 96-98, 303-310, 460-494, 496-521, 523-531, 533-543 |
| `CcsdStep` | `mqed/ccsd.py` 59, 61-62, 74, 87-89, 127-131, 145-147, 234-247, 268-276 |
| `CholOrth` | `lib/mathlib.py` 121-138, 185-192, 194-203; `lib/scipy_helper.py` 60-87 |
| `Diis` | `mqed/diis.py` 37-47, 49-50, 61-79, 82-110, 112-121 |
| `DipoleBasis` | `lib/boson.py` 995-1021; `mqed/scqedhf.py` 67-71, 526-573, 607-615, 760-767, 770-787, 790-799 |
| `DiscreteField` | `qmc/propagators.py` 1252-1302 |
| `Displacement` | `lib/boson.py` 799-986 |
| `DisplacementCpp` |  |
| `DressedJK` | `mqed/scqedhf.py` 125-145, 1204-1260 |
| `Einsum` | `mqed/qedcc_equations.py` 27-28, 33-36, 214, 355 |
| `EinsumSyntax` | `mqed/qedcc_equations.py` 33, 36, 196, 200, 268-272 |
| `Energy` | `qmc/estimators.py` 73-89, 91-128, 307-316, 319-341, 343-368, 427-456, 459-476, 479-544, 592-621, 623-639, 641-679, 692-730; `qmc/propagators.py` 14-61, 472-507, 1179-1219; `qmc/tools.py` 13-21, 50, 63-79, 166-167, 187 |
| `EstimatorElec` | `qmc/estimators.py` 191-192, 199-218, 557-590, 780-793; `qmc/trial.py` 1006-1030 |
| `FakeMpi` | `__mpi__.py` 5-85 |
| `FarField` |  |
| `FciHubbard` | `mqed/qedfci.py` 207-232, 552-584 |
| `FciIntegrals` | `lib/boson.py` 343-352, 355-406 |
| `FciPhonon` | `mqed/qedfci.py` 393-439, 441-475, 789-804, 847 |
| `Fdtd` |  |
| `FdtdBloch` |  |
| `FdtdEnergy` |  |
| `FdtdGrid` |  |
| `FdtdLayer` |  |
| `FdtdMetal` |  |
| `FdtdObjects` |  |
| `FdtdOutput` |  |
| `FdtdParity` |  |
| `FdtdSource` |  |
| `FdtdTri` |  |
| `Fft` |  |
| `ForceBiasOld` | `qmc/afqmc.py` 204, 401-414, 468-495; `qmc/estimators.py` 733-777; `qmc/propagators.py` 403, 462-467; `qmc/trial.py` 857, 921-993 |
| `GradTogether` | `mqed/scqedhf.py` 263-318, 620-678; `mqed/vtqedhf.py` 188, 321-435, 438-526, 528 |
| `Green` | `qmc/estimators.py` 164-196; `qmc/qmc.py` 68-79, 710-721, 733-737; `qmc/trial.py` 207, 212, 217-218, 299, 302-318, 367-392, 419, 904-907 |
| `Gutzwiller` | `gwf/ga_sband.py` 133, 146-176, 180-294, 434-437, 481-488, 496-540, 586-590, 593-598, 602-603, 606-617, 620-623, 629-648 |
| `HHInts` | `models/hh_model.py` 22-55, 93-112, 225-245, 248-285, 294-325 |
| `Hopping` | `qmd/sh.py` 141-165 |
| `HubbardInts` | `lib/ov_blocks.py` 30-42, 51-59, 65-86, 95-110; `models/hubbard.py` 33-37, 83-89, 112-338 |
| `Hyperbolic` | `maxwell/hyperbolic.py` 4-9, 64-85, 88-105 |
| `Incoherent` |  |
| `Integrals` | `qmc/tools.py` 294-324, 471-479, 495-548, 552-558, 575-578 |
| `JointFields` | `qmc/propagators.py` 1682-1683, 1690-1692, 1698, 1707, 1709, 1807, 1818-1821 |
| `JointStep` | `qmc/propagators.py` 640-642, 1534-1539, 1682, 1689-1691, 1698-1703, 1768-1851; `qmc/trial.py` 424-438, 860-866, 911-918 |
| `Kernels` | `qmc/estimators.py` 19-67, 69-113, 116-147, 150-187, 239-276, 279-329, 547-553; `qmc/propagators.py` 17-143, 147-192, 195-246, 265-277, 545, 575; `qmc/trial.py` 355-364 |
| `Lattice` | `models/aggregates.py` 26-39, 146-151, 165-175; `models/hh_model.py` 83-90, 105-112, 131-142, 145-156, 174-183, 202-208; `models/hubbard.py` 40-51, 54-62, 71-80, 92-100, 103-109 |
| `LineShapes` | `lib/misc.py` 221-230, 233-238 |
| `LowRankPlan` | `qmc/tools.py` 50-84 |
| `Measure` | `qmc/qmc.py` 372-381, 828-895, 897-1036 |
| `MpiGrid` |  |
| `MsdOverlap` | `qmc/trial.py` 462-493, 496-513 |
| `MultiDet` | `qmc/trial.py` 299, 516-569, 583-602, 1081-1082, 1109-1196, 1213-1215, 1222-1232 |
| `Offset` | `qmc/population_control.py` 372-417, 420-445, 556-580, 584-595 |
| `Options` | `qmc/generic_walkers.py` 39-43, 58-105; `qmc/qmc.py` 355-366 |
| `Packing` | `lib/boson.py` 30-76 |
| `Photon` | `lib/boson.py` 148-212, 240-258, 324-338, 629-657, 1052-1149, 1407-1436, 1439-1607, 1890-1904, 1952-1990; `mqed/qedhf.py` 508-573, 696-735 |
| `PolarMap` |  |
| `PopulationControl` | `qmc/population_control.py` 30-108, 111-164, 167-250, 262-333, 336-369, 372-417, 449-454, 492-511, 518-551 |
| `ProductStep` | `qmc/generic_walkers.py` 316-321, 345-353; `qmc/propagators.py` 14-61, 1361-1412, 1538-1539, 1714-1715, 1719-1720, 1740, 1743-1754, 1756-1760, 1768-1851 |
| `Propagate` | `qmc/propagators.py` 122-126, 253-258, 374, 563-566, 655, 657, 676, 678 |
| `PropagatorBuild` | `qmc/propagators.py` 371-374, 381-385, 399-401, 1150, 1160-1163, 1167-1168; `qmc/trial.py` 783-791 |
| `PyTiles` |  |
| `QedAfqmc` | `qmc/afqmc.py` 297-299, 303-323, 326-333, 338, 401-407, 409-414, 508-511, 519-527, 530-574, 579-582 |
| `QedFci` | `mqed/qedfci.py` 82-84, 87-122, 127-170, 172-205, 235-252, 254-288, 314-325, 328-339, 342-369, 478-515, 649-716, 734, 737-755 |
| `QedFciDensity` | `mqed/qedfci.py` 517-549, 757-787 |
| `QedLib` |  |
| `QedccExec` | `lib/boson.py` 2173-2194; `lib/ov_blocks.py` 30-42, 65-86; `mqed/ccsd.py` 154, 161-222, 234-236; `mqed/myqedcc_equations_opt.py` 2563-3261; `mqed/qedcc_equations.py` 23-63, 594, 847-853, 1389, 1409-1410 |
| `QedccInput` | `lib/boson.py` 2226; `mqed/ccsd.py` 40-52; `mqed/myqedcc_equations_opt.py` 105, 375-538, 541-603, 2251-2560, 2563-3261; `mqed/qedcc_equations.py` 23-63, 65-184, 347-405, 407-582, 584-1214, 1217-1376, 1379-1990 |
| `QedccOpt` | `mqed/myqedcc_equations_opt.py` 46-103, 375-538, 541-603, 2251-2560, 2563-3261 |
| `QedccRef` | `mqed/qedcc_equations.py` 23-63, 65-184, 347-405, 407-582, 584-1214 |
| `QedccSingle` | `mqed/qedcc_equations.py` 1217-1376, 1379-1990 |
| `QedccTensors` | `mqed/myqedcc_equations_opt.py` 49-50, 55, 57, 67, 77, 84, 87, 90, 94, 99-100, 103, 2276, 2283, 2321, 2324, 2327, 2408, 2423, 2449, 2496, 2805, 2818; `mqed/qedcc_equations.py` 13-14, 23, 25, 30-31, 35, 38, 40-45, 49, 55, 78, 87, 89, 91, 96, 197-198, 206, 213-214, 219, 221, 227, 236-238, 245, 249, 253, 260, 268, 271, 282-284, 289-291, 301, 305, 307-309, 317, 323, 332, 360, 383, 407, 584, 848-850, 853, 1217, 1379 |
| `QmcIntegrals` | `qmc/qmc.py` 551-657, 747-767, 769-825; `qmc/tools.py` 328-381, 384-425, 606, 613-614, 619, 622-623, 656-657 |
| `Qmd` | `qmd/bomd.py` 30-51, 53-319, 334-337, 339, 382-409; `qmd/mqc.py` 50-62, 91-115; `qmd/propagator.py` 6-26, 73; `qmd/sh.py` 79-89, 91-109, 119-139, 168-183, 185-199 |
| `Run` | `qmc/propagators.py` 826; `qmc/qmc.py` 957-1000 |
| `ScQedHF` | `lib/mathlib.py` 141-205; `mqed/qedhf.py` 728-735, 826-827, 833-845, 847-848; `mqed/scqedhf.py` 67-71, 82-88, 485-494, 578-581, 620-678, 802-846, 849-881, 917-926, 960-968, 1010-1027, 1036-1058, 1066-1071, 1145-1168; `mqed/vtqedhf.py` 175-212, 215-260, 288-315, 471-518, 549-560, 563-585, 588-611, 641-667, 669-670 |
| `ScfCycle` | `mqed/qedhf.py` 303-397, 728-735; `mqed/scqedhf.py` 232-263, 309-350, 583-617, 935-976, 979-1080 |
| `ScfLoop` | `mqed/qedhf.py` 70-298, 576-687; `mqed/scqedhf.py` 147-418 |
| `Schedule` | `qmc/generic_walkers.py` 154; `qmc/qmc.py` 92-207, 885-1036 |
| `Seeding` | `qmc/population_control.py` 213, 358, 394; `qmc/propagators.py` 619-639; `qmc/qmc.py` 915-922 |
| `Spin` | `spindy/spin.py` 30-66, 68-97, 130-148, 154, 167-180, 205-215 |
| `Stats` | `qmc/tools.py` 597-830 |
| `Step` | `qmc/propagators.py` 555-566, 652-656, 684, 699-756; `qmc/qmc.py` 959-995 |
| `Subspace` | `solvers/linalg.py` 23-39, 41-56, 368-378, 552 |
| `Support` | `__config__.py` 89-90, 92-117; `lib/backend.py` 69-101, 435-529; `lib/logger.py` 37-47, 52-103, 138-146, 163-189; `qmc/trial.py` 661-672; `solvers/linalg.py` 155-175, 178, 520-523, 528 |
| `TiledTensor` |  |
| `TrialBoson` | `qmc/trial_boson.py` 94-97, 175-194, 257-259, 261-263, 265-272, 274-289, 303-304, 306-311, 313-320, 322-335 |
| `Vmc` | `qmc/vmc.py` 104-109, 112-199 |
| `Walkers` | `qmc/generic_walkers.py` 59-124, 154-189, 192-203, 206-219; `qmc/population_control.py` 457-489 |
| `WeightUpdate` | `qmc/propagators.py` 300, 510-533, 762-827 |

## Disagreements between code and properties

Found by trying to prove the property.  Each is a theorem (suffix `_fails` or
`_iff`) about the model; the last column is the note of `MANIFEST.json`.

| id | property | what the code does |
|----|----|----|
| C04 | Branching preserves the signed total weight | Holds for non-negative weights; false for signed weights (witness). |
| C05 | Alternative branching routines conserve total weight | Both variants keep the count but not the total weight (witnesses). |
| C08 | Comb resampling: size, weight and copies | Holds for offsets > 0; with offset exactly 0 a zero-weight walker 0 is kept (witness). |
| C13 | Inter-node rebalancing evens out the population | The code builds a sound plan but never executes it. |
| C16 | Population control moves all per-walker data together | Packed arrays move together; hybrid and local energies are left behind. |
| C18 | Force bias is bounded by the requested bound | Holds for bounds >= 1 (the default); for a bound below 1 components are enlarged to modulus 1. |
| C19 | Weight update is real, non-negative and bounded | Local scheme as documented; hybrid scheme drops the imaginary part of the hybrid energy so the phase projection ignores the overlap ratio. |
| C24 | Half-rotated Coulomb and exchange energies are exact | Reference estimators exact; the compiled Coulomb variant misses a square (witness); the full-Green-function estimator is exact only for real Cholesky matrices. |
| C25 | Electron-boson local energy couples each mode to its own operator | Exact for one mode; the block offset is never advanced (witness with two modes). |
| C26 | Reported energies do not depend on how walkers are distributed | Holds for the electronic estimator; the electron-boson estimator mixes local energies with the global norm (witness). |
| C27 | FCIDUMP reader restores permutational symmetry | Four of the eight symmetries hold; the exchange of the two pairs is never restored (witness).  A file without nuclear energy line raises. |
| C29 | Statistics helpers are safe and average the right window | auto_window returns lag 0 if the window never closes (witness); the z-score filter empties constant data (for every length and threshold). |
| C30 | Option defaults are not shared between simulations | Holds for options nobody set before; an explicit option is inherited by later objects (witness). |
| C33 | Displacement derivative is the true derivative | True derivative proved; the code omits the first-coherence term (witness), exact when neighbouring coherences vanish. |
| C34 | Squeezed-photon energy and its gradient agree | Gradient and positivity proved; the energy omits the n,n+2 coherences (witness: a ground state of the Hamiltonian the code builds). |
| C35 | Coupling-fraction gradient of the one-electron term is exact | Exact for one mode and for a common change of all fractions; not the derivative in one fraction with two modes (witness). |
| C37 | Mode vectors passed by the caller are not modified | Holds for lists and unit vectors; an array of other vectors is normalised in place and the couplings are lost, for every such array. |
| C40 | Displacement gradient is the exact energy derivative | Exact for one photon state; with several the code drops the factor exp(F)/omega (witness). |
| C41 | Squeezing and transformation gradients are exact | All derivatives exact for photon states of definite parity and displacements proportional to the fraction; at fixed displacement the fraction gradient is wrong (witness). States without parity are not covered. |
| C42 | Cholesky-reduced orbitals are orthonormal | The algorithm is right but the two results of the decomposition are swapped; holds only for unit overlap. |
| C43 | Incremental potential equals direct potential | Exact whenever the call returns; it never returns when the integrals do not fit in memory. |
| C44 | A converged flag means converged | Tolerances hold in the last loop cycle; the extra cycle is never checked. |
| C45 | Variational parameters round-trip through the extrapolation vector | Fails for every system when only the squeezing is optimised. |
| C46 | Back-transformed density matrix is a density matrix | Hermitian and positive for QED-HF and VT-QED-HF; not for SC-QED-HF; Poisson only up to one photon. |
| C48 | Bosonic energy of a CI vector | Right for 1-D Hbb and for one mode; the kernel always passes a diagonal matrix, whose row is broadcast over another mode axis: for every system with two or more modes it raises or gives a wrong energy. |
| C50 | Amplitude vectors round-trip | Electronic amplitudes survive the vector round trip. The bosonic ones are never taken from the vector (the loop variable is rebound), so extrapolation never acts on them. |
| C51 | Asking for amplitudes returns amplitudes | The module-level kernel returns amplitudes on request; the class method never does, and its positional arguments are shifted by one. |
| C52 | Coupled-cluster denominators | Boson denominators are right at every order; mixed ones at first order or with one mode. Beyond first order with another number of modes they are wrong or raise. |
| C54 | Surface-hopping Hamiltonian carries the state energies | With a coupling table that also has an entry per state, the couplings are antisymmetric and each pair has its own entry. With one entry per pair get_H raises IndexError for every number of states; when it returns, the diagonal is minus a table entry and the state energies are not in the Hamiltonian. |
| C55 | At most one hop per step | A frustrated hop leaves state and velocity untouched. The number of hops is bounded only by the number of states passing the random test (so at most one if at most one passes); with couplings equal to zero a trajectory hops once for every such state. |
| C56 | Lattice hopping matrices | Right for two or more sites (Hubbard) and three or more (Hubbard-Holstein). One site raises or hops onto itself; the open Hubbard-Holstein chain of two sites has a doubled bond. |
| C58 | Backend selection is all-or-nothing | All or nothing for names whose precision exists, and after any history of them. A precision that does not exist raises after the class has already been switched; TiledArray never installs a precision. |
| C59 | Verbosity is monotone and errors are printed | Monotone for log, warn, info, note and debug, and for the Logger class. error and debug1 to debug4 raise NameError at every verbosity; the Logger class hides errors at its default verbosity. |
| C63 | Davidson preconditioner never divides by zero | The preconditioner is bounded for every input. The Davidson entry point raises TypeError for every input because the solver is redefined as an empty function. |
| C64 | Configuration options | Right for every history of values other than None; a stored None is reported as missing. |
| C66 | A uniform population is left alone by weight control | Proved from ten walkers on (comb: offset not zero). False below ten walkers: the clipping bound is a tenth of the recorded total, so weights are cut below one and the recorded total decays as n (n/10)^k. |
| C67 | The random seed determines the random numbers of a run | On several processes without debug_mpi the seeded generator is created and dropped (qmc.py L920): the seed has no effect. Proved for one process and for debug_mpi with control methods that draw a fixed number of values. |
| C68 | A second run on the same object measures only its own steps | The buffer is cleared only at measurement steps and by __init__: if the first run has n steps and the frequency f does not divide n, the last n mod f steps enter the first average of the second run. |
| C70 | Orthogonalisation keeps the stored overlaps consistent | Holds when the triangular factor has positive diagonal; otherwise the stored overlap has the wrong phase (witness), and the boson part is not treated. |
| C72 | Mixed low-rank/banded exchange equals the reference exchange | Holds for symmetric tensors; the low-rank route misses a transpose (witness). |
| C75 | Electron-photon coupling enters the blocked integrals for any number of modes | Holds for one mode; with two or more modes the reshape raises for every input. |
| C77 | Blocking analysis always reports a valid block size and mean | Holds when the autocorrelation time is positive; raises for every pair of different samples and for every constant series. |
| C78 | Walker options reach the walkers | nwalkers arrives; weight bounds are ignored for every input. |
| C79 | Displacement expectation value is that of the displacement operator | Holds without odd coherences; fails with them (witness). |
| C80 | Photon populations of every mode are normalised | Holds for one mode; fails for every system of two or more modes. |
| C81 | Bilinear energy counts the displacement once | Holds for one electron or zero displacement; the displacement is counted once per electron otherwise. |
| C85 | FCI kernel diagonalises the Pauli-Fierz Hamiltonian, with or without coherent_state | Right without coherent_state (one mode). With coherent_state the linear term omega z (b + b^dagger) is missing, for every system with non-zero displacement. |
| C87 | Geometry used inside the electronic propagator | Right for every step once the stored Hamiltonian belongs to the stored geometry. The first stage of the first step uses uninitialised memory. |
| C88 | Electronic equation of motion conserves population | The documented equation conserves population. The coded one agrees with it when all couplings are zero; for any non-zero antisymmetric coupling it creates population for some coefficients. |
| C89 | Molecular dynamics drivers run | A BOMD object can be constructed with any options. Constructing MQC raises for all options; the first BOMD step calls a method that does not exist. |
| C93 | Hubbard-Holstein electron count | Right for even numbers; odd numbers lose one electron. |
| C96 | The propagator is built from the electronic Hamiltonian | exact for real Cholesky matrices when all fields enter the self-interaction term; for complex Hermitian matrices the code contracts conj(L) L instead of L L and the claim fails; generator_eq gives the difference for all matrices |
| C97 | The decoupled electron-boson propagator is built from the joint Hamiltonian | the code leaves out the mean-field coupling of electrons and bosons; holds when all mean values of the joint fields vanish (real bare matrices, at least one bare field) |
| C98 | Averaging over shared fields reproduces the joint two-body propagator | holds without force bias; with the separate force biases of the code the product f b is replaced by (f-vf)(b-vb); operators are represented by numbers (common eigenvectors) |
| C101 | Determinants of a selected-CI trial occupy the frozen core and the active orbitals | holds if both spins have the same number of frozen electrons; the frozen core of the first spin is used for both, so the number of beta electrons is wrong otherwise; an active space without beta electrons raises for every input |
| C102 | The walk is guided by the overlap with the whole multi-determinant trial | only the first determinant is used: proportional to the full overlap for all walkers exactly if all other coefficients vanish |
| C104 | Initial bosonic trial states are normalised coherent states in every mode | amplitudes are coherent; more than 21 states per mode raise; the array is normalised as a whole, so with two or more modes no mode has norm one |
| C105 | The substitute for MPI behaves like MPI on one process | plain arrays and one pending message per tag work; Scatterv with counts always raises, Gatherv with counts leaves the receiver unchanged, a second message with the same tag overwrites the first |
| C111 | A step of electrons and bosons realises imaginary-time evolution with one Hamiltonian | proved: the average is exp(-t H) with H = h + Hb + 1/2 sum (L - lbar)^2 + 1/2 sum (B - bbar)^2 + sum (L - u)(B - v), where u and v are the mixed estimates of the walker that is moved, so H depends on the walker. It agrees with fixed reference values u0, v0 in the overlap with the trial exactly when sum (u - u0)(v - v0) = 0 (joint_step_iff); in particular to first order the overlap with the trial contains no coupling at all (coupling_invisible). joint_step_fails: a system for which it is not the Hamiltonian with the mean-field values, which the unbiased fields give. Symmetric boson operators (chol_B of the code is), Taylor order from 3, positive bound of the force bias |
| C112 | A step with a mean-field bilinear coupling realises imaginary-time evolution with the bilinear Hamiltonian | proved: the average of a step is evolution with the mean-field Hamiltonian h + sum Q g + Hb + sum z (b^dagger + b) with the fields Q and z of the population (product_mean, product_step), Q and z being weighted averages of quadratic forms of the boson states and of mixed estimates of the coupling (qalpha_mean, zlambda_mean). It agrees with the bilinear Hamiltonian minus a constant for a given determinant and boson state exactly under product_element_iff, for the overlap with the trial when sum (g - z)(q - Q) = sum z Q - shift (product_iff), which for one walker singles out shift = z Q (single_iff). product_fails: already for one walker there are overlaps that no constant shift repairs, so the claim is false in general. Taylor order from 3 |
| C113 | The mean fields of the product formalism depend only on the ensemble of walkers | proved: both fields are independent of the order of the walkers and of the scale of the weights, the Green functions behind the field of the electrons of the basis of the occupied orbitals; the field of the bosons is real; all walkers of a process move in the same two averages (population_step). Not so: a factor s of the boson states multiplies their field by |s|^2 (field_scale), so the field is an expectation value only for normalised states (field_expectation_iff) and the electrons of one walker move differently after its boson state is doubled (scale_fails); the averages run over the walkers of one process, they agree with those of the whole population exactly if the processes agree among themselves (qalpha_local_iff, zlambda_local_iff), and two walkers end in other states on two processes than on one (split_fails). Without the mean-field coupling a factor of the boson state has no influence (jstep_scale) |
| C117 | The first-order photon-electron doubles residual is the derivative of the doubles residual | proved for the unoptimised file with several modes (ref_U21_derivative) and for the optimised file with one mode or nfock2 = 1 (opt_U21_derivative_partial). The optimised file with several modes and nfock2 = 2 uses the mode of the residual where the mode summed over belongs; the difference is given exactly (opt_U21_error) and is not zero for two modes (opt_U21_derivative_fails) |
| C118 | The second-order photon-electron singles residual is the second derivative of the singles residual | proved for the unoptimised file with several modes if U2n is not used (ref_U12_derivative_partial); with U2n the terms of doubles with photons are counted twice (ref_U12_error gives the difference, ref_U12_derivative_fails an example). In the optimised file the elements (m,n) and (n,m) add up to twice the derivative with a further surplus of half a term (opt_U12_error, opt_U12_one, opt_U12_derivative_fails), and they are not equal (opt_U12_symmetry_fails) |
| C119 | The second-order photon-electron doubles residual with one mode is the second derivative of the doubles residual | both files give the second derivative of the doubles residual without its term of degree four in the singles (opt_U22_error, ref_U22_error); it is the full derivative without singles (opt_U22_derivative_partial) and not in general (U22_derivative_fails). Several modes are not covered: the code fills only the element of the first mode |
| C120 | The residuals written for one mode are derivatives of the singles and doubles residuals | singles: proved. Doubles: both residuals are derivatives of the doubles residual without its term of degree four (one_U21_error, one_U22_error), and for nfock1 = 2 the second one lacks the terms with S2 as well, since the code asks for nfock1 > 2 instead of nfock1 > 1 (one_U22_error_two); hence neither is the derivative of the doubles residual (one_U21_derivative_fails, one_U22_derivative_fails) |
| C122 | A converged iteration of QED-CCSD solves the coupled-cluster equations | proved for singles and doubles (stepT1_fixed, stepT2_fixed). For the amplitudes with photons the residual already contains the frequency times the amplitude and the code divides by denominators that contain the frequency too, so a fixed point solves the equations with twice the frequency (stepS1_fixed, stepS2_fixed, stepU11_fixed) and never the right ones unless the amplitude is zero (stepS1_fails, stepU11_fails; a concrete fixed point is given). Damping does not change the fixed points (mix_fixed) and stays between old and new values (mix_between). U12, U21, U22 are not covered |
| C123 | The residual functions run for every truncation and read only its amplitudes | every einsum of the optimised functions finds its operands with the right axes among the nine blocks of two-electron integrals that the photon object makes (opt_runs_partial), the unoptimised functions need all sixteen blocks (ref_runs_partial) and raise with the nine (ref_runs_fails); the results are independent of the amplitudes beyond the truncation (ref_truncation, opt_truncation). Missing: the unused sum eps_vir + w of the doubles functions raises unless there is one mode, one virtual orbital or as many modes as virtual orbitals (U2n_runs_iff, U2n_runs_fails), even when doubles with photons are not used; and for nfock1 = 0 the intermediates read an array that is not set (imds_runs_fails) |
| C124 | Fock matrix and two-electron integrals of QED-CCSD belong to one Hamiltonian | I_eq: get_I returns the antisymmetrised integrals of the spin orbitals of Co and Cv with the dipole self-energy products added; I_symm: the antisymmetries and the pair symmetry; fock_consistent_partial: F = h + sum over occupied of the integrals if the mean field is a QED one with add_dse and shift is off; F_canonical: F is diagonal with the orbital energies for canonical orthonormal orbitals. Missing: for a bare mean field or add_dse off the Fock matrix is that of the integrals without self-energy (fock_bare) while get_I adds it, so the two disagree (fock_consistent_fails) |
| C125 | Photon part of the QED-CCSD integrals: displacement, linear term, reference energy | F_shift: with shift, F is the coherent-state Fock matrix without the quadrupole part and the energy per electron, so a source of the singles is missing (F_shift_fails); xi_linear: the displacement cancels the linear term; mfG_linear: mfG is right iff there is no displacement, kernelG_linear: the zero of the kernel is right iff the displacement is the coupling of the reference, as with coherent state (kernelG_partial), not in the Fock basis (kernelG_fails); hfEnergy_eq, hfEnergy_shift: hf_energy is the mean-field energy minus half the photon part, resp. minus photon energy and quadrupole part (hfEnergy_fails); get_jk without the integrals in memory calls itself for ever (getJk_fails); the kernel of Photon returns iff the dipole and coupling matrices were stored before (getGmatSo_iff), not on a fresh object (getGmatSo_fails) |
| C126 | The error vector of the accelerated iteration vanishes exactly at stationary points | err_zero, err_zero_plain, err_zero_spin, err_zero_stack: zero iff FDS = SDF (and the gradient is zero), with the length of the vector; orth_zero in a complete orthonormal basis, orth_reduced with linearly dependent functions removed; stationary: zero iff tr(F dD) = 0 for every first-order variation of the density that keeps it hermitian and idempotent; update_partial, ravel_get: layout of the parameters; bookkeep_spec: the rollback keeps the newest vectors. Missing: with orbital symmetries only blocks of equal symmetry count (orth_sym), which loses nothing for symmetric matrices (orth_sym_partial) and hides a symmetry-breaking Fock matrix (orth_sym_fails); without variational parameters the update raises (update_fails). The extrapolation itself belongs to another package |
| C127 | The Gutzwiller amplitudes of a site are those of the ground state of its local Hamiltonian | local_expect: the three matrices represent hopping, density and double occupancy. ground_half_fails: at half filling the weight of the singly occupied site taken by the code is 1/4 for every interaction, that of the ground state only without interaction; ground_fails: without hopping and with the repulsion between half the chemical potential and the chemical potential the code takes the doubly occupied site although the ground state is the singly occupied one, because the first row and not the first column of the eigenvectors is read. docDelta_deriv: the documented coupling is half the derivative of the quasiparticle energy; deltas_partial: the code agrees where the factors are the same on all sites joined to the site; deltas_fails: on two sites it differs whenever the factors do, because the factor of the site itself is used. Hpp_isSome: an empty or full site has no finite local Hamiltonian. lamdaErr_zero, newLamda_fix: error zero and multipliers unchanged exactly for equal densities (or zero factor). |
| C128 | A Gutzwiller run keeps normalised amplitudes and returns its energy | init_iff: the start exists, is normalised and has the density exactly for densities per spin between zero and one; init_fails: the kernel passes the density of both spins, which above half filling gives no number for any orbitals. renorm_mem, renorm_uncut, renorm_start: bounds of the factors, no cut for agreeing densities, value without correlation. run_good: normalisation, sign and bounds along every run. kernel_energy_fails: the returned energy is zero for every system, and zero cycles raise. conv_sticky: convergence once seen is reported whatever follows. Orthogonality of the eigenvectors is assumed of the eigensolver. |
| C129 | The conductivity of a hyperbolic material is passive and is the documented one | passive: real part not negative for nonnegative frequencies, strengths and damping. row_eq_doc_iff: with the weight of the code a component is the documented one exactly if its strength is zero or the number of plasmon frequencies passed is one above and zero below its interband frequency; row_partial: one component with both frequencies on the same side; row_fails: below the interband frequency with any plasmon frequency passed, or with two passed, the value is wrong. weight_fails: the weight of the free electrons grows with the root of the density instead of the density; plasmonFreq_sq: the plasmon frequency itself is right. Values where the logarithm or the quotient is not finite are outside. |
| C130 | Overlap matrix and gradient of variational Monte Carlo | S_posSemidef, g_shift, S_shift, g_eigenstate: for every sample. eMean_exact, g_derivative: samples in proportion to the square of a real wave function give the energy and half its derivative. g_complex_fails: for the wave function (1, exp(i theta)) of a two state Hamiltonian the code gives the opposite sign of the derivative for every theta because the logarithmic derivative is not conjugated; g_complex_partial: with real local energies the real part is right. kernel_iff, kernel_fails: the kernel reads attributes that the constructor does not set; an object as made raises at the first iteration. |
| C131 | Zero field splitting tensor, g tensor and attributes of spin objects | zfs_symm, zfs_trace, zfs_hamiltonian, zfs_inj, g_number, ndim_half, attr_set hold. g_stack_fails: a stack of isotropic tensors raises unless there are three, which become one diagonal tensor mixing the spins; g_single_fails: a stack of one tensor raises; g_stack_partial: other stacks are kept. attr_DE_fails: the attributes D and E are zero for every call; system_size_fails: a system has size one for every call, because the arguments are named in the signature and never reach the update. |
| C132 | String tables, density matrices and diagonal of the full CI with photons | elem_link, link_symm, link_diag, link_counts, link_pair: the concrete tables over strings are the excitation operators; link_symm and link_counts discharge the hypotheses that C49, C85 and C86 make about tables. rdm12_energy, rdm2_trace, rdm2_pair_symm: hermitian tables, every vector. hdiag_elec: the electronic part of the diagonal is right. hdiag_error, hdiag_iff, hdiag_fails: the photon energy of every mode is replaced by one half where it is smaller, so the diagonal is right exactly where every mode carries at least half a unit and too large by a half per mode in the vacuum; the diagonal is only the preconditioner and start of the solver. make_rdm1p reads an undefined name and is not modelled. |
| C133 | The energy offset of the population control moves the mean weight to its target | offset_result: what the step returns, for every population. offset_fails: the offset enters with the wrong sign, for equal energies the mean weight moves away from the target for every population not at the target. offset_partial: at the target it is the plain step. opposite_sign: with the other sign a unit time step reaches the target at once. adjust_eq, systematic_eq: the other entries of the class. |
| C135 | Integrals handed to the full CI describe the Hamiltonian of the boson class | dse_operator: for all link tables of C132. hep_partial: one mode is right. hep_fails: two or more modes not as many as orbitals raise at the broadcast; hep_square_iff: as many modes as orbitals is right for every coupling exactly if all frequencies are equal. dm_trace_iff: the density counts the electrons for every density exactly if the square of the overlap is one, because the overlap is overwritten before its use; dm_fails: for one orbital of any other overlap. |
| C136 | Degenerate groups of the dipole basis are resolved and the basis stays an eigenbasis | turned_iff: with no gap exactly at the threshold the turned slices are the degenerate groups except the one that holds the largest eigenvalue; top_group_fails, all_equal_fails: that group is never turned, for every spectrum; at_threshold_fails: a gap equal to the threshold shifts the next slice so that it mixes vectors that are not degenerate. resolve_spec: the whole function for every result of the eigensolver on the slices. chol_one_mode: with one mode both storage schemes agree; eri_last, chol_first, store_fails: with several modes the integrals of the last mode and the Cholesky vectors of the first mode are kept. photonExpVal_eq, photonExpVal_two_iff, photonExpVal_fails: the photon expectation value is a product of two sums instead of the occupation and zero for all modes but the first at the start. The Fock and dipole matrices are arguments. |
| C137 | Self energy matrices of the boson class agree with those of the mean field class | jk_agree: symmetric densities and equal factors. jk_transpose, k_product: for other densities the exchange matrix is that of the transposed density. jk_residue_fails: without bare self energy the residual matrices exceed those of the mean field class by the whole bare matrices for every parameter. bdagMinusB_fails: the function named after the difference of the ladder operators returns the value of the sum (bdagMinusB_eq), positive for every mode with positive coefficients while the named one is zero. |
| C139 | Hopping probabilities are those of the fewest switches rule | population_rate: the documented equation moves populations by the flows between pairs. hop_reverse: the entry is the probability of the reverse hop. hop_correct_iff: right only without flow. hop_sign_fails: hops that should happen are never drawn. hop_raises_fails: TypeError for any molecule. hop_rows_partial: shape of the result if the number of states were given to range. Missing: the claim itself, which is false. |
| C140 | The Hubbard routines of the full CI are the Hubbard interaction | hubbard_scalar: one number, equal to the second quantised operator. hubbard_triple_fails: three numbers raise unless the last mode has three states; hubbard_triple_mode_fails: then the interaction depends on the boson number. hdiag_hubbard_fails: NameError. hdiag_hubbard_iff: with the name repaired right only without interaction or electrons. Missing: three numbers and the diagonal, where the claim is false. |
| C141 | Electronic estimators give the energy of Wick's theorem and split the spins | local_eng_error: the estimator is the energy minus half of the one electron part. gfSo_spec: both spins, also without beta electrons. uhf_build_fails: shapes, for every number of orbitals and electrons. exx_chunked: offsets of consecutive parts. Missing: the one electron energy and the unrestricted trial, where the claim is false. |
| C142 | A run propagates, orthogonalises and measures at the stated steps | counts and times_eq: numbers of operations and the list of times, both kernels. time_early_fails: at every measurement the recorded time plus one time step is the propagated imaginary time. kernels_agree_iff: the two kernels agree exactly without steps or with the default population control. Missing: right times and equality of the kernels for other methods, where the claim is false. |
| C143 | The gradients of all variational parameters in one loop are the separate gradients | together_eri: four-index integrals, all switches. together_chol_sq: squeezing gradient with a Cholesky tensor. together_chol_eta: what the displacement gradient is instead. together_chol_two: minus twice and twice the right values for two orbitals. together_chol_fails: with the vacuum factors of the code, every frequency, squeezing and density. One mode. Missing: displacement and fraction gradients with a Cholesky tensor, where the claim is false. |
| C144 | The energy of an SCF cycle is the energy functional at the new displacements | cycle_energy: the reported energy is the functional at the new displacements plus the self energy of the old ones minus that of the new ones, with or without extrapolation. cycle_energy_partial: equal when the displacements did not change. fock_three: the Fock matrix of a cycle combines three sets of displacements. cycle_eta: the step. cycle_below_fails: first cycle of two orbitals with the vacuum factors and the start of the code, reported energy below the functional at all displacements. One mode, displacements only. Missing: cycles that change the displacements, where the claim is false. |
| C145 | The bilinear propagator by orders is a truncated exponential | elec_series: both spin components, all orders. boson_series: what the bosonic part is. boson_exp_partial: orders zero and one. boson_exp_fails: every higher order, on an eigenvector with positive eigenvalue. elec_limit, boson_limit_fails: limits for growing order. Missing: the bosonic part above order one, where the claim is false. |
| C146 | Unrestricted and general orbital integrals of the Hubbard chain agree | aint_orders: antisymmetrisation before or after the transformation. spin_blocks, fock_blocks: all spin blocks, for any orbitals. nine_determine, gaint_antisymm: nine blocks are enough for the general integrals. all_partition: the sixteen blocks. nine_mixed_fails: make_two_e_blocks for two spins; the Hubbard classes use the sixteen blocks there. Missing: that case. |
| C147 | Fock matrix and orbitals of the Hubbard-Holstein model belong to its energy | hh_fock_gradient: expansion of the energy to second order around any density, with the shifts changing. hh_fock_orbitals: any orbitals. mo_hopping_partial: three or more sites. mo_hopping_two_fails: two open sites. mo_eri_partial: broken symmetry only. mo_orbitals_fails: otherwise, for every nonzero repulsion on three open sites, the orbitals are not those of the model. Missing: the two cases in which the claim is false. |
| C148 | Selection of bright states and spectra of molecular aggregates | node_test: Cauchy-Schwarz bound of the number that decides about ground states. selection, selection_sign: all thresholds and orders. linearAbs_partial: as many states of interest as sites. linearAbs_dark_fails: one state of interest of a dimer. tdes_harmonic, tdes_nonneg: any list of states. tdes_additive_fails: any two molecules with dipoles. Missing: the sum over all states with fewer states of interest and additivity, which are false. |
| C149 | The initial coherent state of a Monte Carlo run is not above the vacuum | coherent_energy: the energy of the truncated, normalised state, one mode. start_iff: when the claim holds, for both spins. start_above_fails: every closed-shell trial with a coupling. Missing: the claim itself, which is false for those trials. More than one mode is not modelled here. |
| C150 | Compiled kernels compute what the Python functions compute | expOp_real_partial: order at most two. expOp_real_fails: every order from three on. hs_after_onebody: the call of a step. hs_lost_fails: an array that has to be converted, for example real walkers, keeps its old value. ecoul_uhf_partial: equal numbers of electrons. ecoul_uhf_fails: fewer beta electrons, the last walker. Missing: the cases in which the claim is false. Eigen products are matrix products, memory is a function of the position that is none outside the array. |
| C151 | Compiled displacement matrix agrees with the Python function | disp_mat_eq, exp_val_eq: any numbers of states and orbitals, whatever the memory held before. exp_val_partial: a packed density matrix. exp_val_fails: every mode with at least two states and the square density matrix of the highest state. Missing: the claim for square matrices, which is false. |
| C154 | Grid of the Maxwell solver | cell_sizes: the three directions without further regions. time_step_stable: vacuum, uniform grid, S squared above 3. region_size_partial: lattice constants dividing the common multiple; region_size_fails: all others. sort_partial: starts that are integers, any number of regions. sort_outside_fails: all starts between 0 and 1, any number of regions. zToI_mono_partial, iToZ_partial: regions that start and end on the grid. zToI_mono_fails: every first region ending in the upper half of a cell. Missing: the cases in which the claim is false. Rational numbers instead of float, int without overflow. |
| C155 | Distribution of the Maxwell grid over processes | neighbours_match, ring, findX_eq: all processes. partition_iff: with at least one cell for every process the ranges are a partition exactly when every size is a multiple of the number of processes. findY_partial: as many cells along y as along x; findY_fails: all other shapes. source_column_partial: the processes that add a source are one column along z, hence one process when there is one along z; source_repeated_fails: two of them otherwise. Missing: the cases in which the claim is false. Sizes that are not negative; positions as rational numbers. |
| C156 | Bloch boundaries of the Maxwell solver are the whole crystal | bloch_step: the crystal built from the new arrays is the update of the crystal built from the old ones, in all cells of the plane and all layers k with 1 <= k < pksize, and the boundary values stay those of the crystal, so the statement holds at every step. No molecules, no absorbing layer and no special metal along the periodic directions. tri_step_partial: the same for the triangular lattice with an even number of cells along x; tri_odd_fails: for every odd number from 3 on a boundary value never changes. molecule_fails: at every molecule without plasma frequency and current the two arrays are updated with two different permittivities. Missing: the cases in which the claim is false. |
| C157 | Mirror planes of the Maxwell solver are the whole grid | parity_step: one step from fields that are symmetric at the planes and zero at the outer edge gives the update of the mirrored fields for all six components, in all cells of the computed part and of its mirror images, and the hypotheses hold again, so the statement holds at every step. With a plane along z the two spacings next to the plane have to be equal. parityE_even, parityH_even: the assignments at the three planes leave all symmetry conditions true together, for every field. whole_run_fails: every dielectric, every parity, every even number of cells from four on. Missing: metals, absorbing layers, parities together with periodic directions; the case in which the claim is false. |
| C158 | Fields reported at the nodes of the Maxwell grid | values_whole: electric field, magnetic field and flux at every node of both halves are the means of the mirrored fields (C157), for every set of parities, when the sizes are even (hzParity_even). odd_fails: every odd size from seven on. crystal_valuesE, crystal_cellE: after a step the reported electric field is the mean of the field of the crystal (C156), in the cell and with the phases in every cell along x or y. crystal_valuesH_partial: the magnetic field from the second layer on, except Hz at the first node. corner_never, corner_fails: the corner keeps its first value for all times, so Hz is wrong there whenever it does not vanish in the last cell. periodicXY_right_iff: exactly when the phase for both directions is right. row_nodes: the nodes of a printed row; row_fails, column_fails: every size from two on. Missing: the first layer of the magnetic field, triangular lattices, permittivities, files; the cases in which the claim is false. |
| C159 | Losses and energies reported by the Maxwell solver | total_partial: for every flux the loss is the sum of the outflow of the cells, when the layers along y have equal width and lattice_z is a multiple of five. width_fails, layer_fails: whenever one of these does not hold there is a flux leaving the region that is not counted. updown_excess: the two vertical losses differ exactly by the flux through two layers of the sides; updown_fails: a flux for which they differ. block_fails: for every block with two cells along y a flux without sources in any cell gives a loss; block_partial: the loss is right when nothing flows through the lower edges. blocks_excess, blocks_fails: the common layer of two blocks is counted twice. detector_max: the node of largest energy for energies above the first value of the search. sphere_vector: the three components are those of one vector in spherical coordinates; sphere_index_partial and sphere_index_fails: the index along x is the nearest one, that along y when the centers agree and never when they differ by more than one cell. Missing: rounding of numbers, losses in metals, files; the cases in which the claim is false. |
| C160 | Fourier transform of the far field | fft1d_dft: for every m, direction and data the bit reversal ends, the first 2^m elements of the result are the discrete Fourier transform and the others are unchanged. round_trip: direction -1 after direction 1 gives the original arrays. powFinder_log: the integer logarithm, and no end for zero. fft2d_dft_partial: the two-dimensional transform for sizes that are powers of two. shift_eq: every entry moves cyclically by half the size, also into the additional row and column. ordered_partial: transform and shift together give entry (i, j) the frequencies i - nx/2 and j - ny/2. size_fails: for every number of columns that is not a power of two a point source gives zero in the last column instead of 1/(nx ny). Missing: rounding of numbers; sizes that are not powers of two, for which the claim is false. |
| C161 | Far field of the Maxwell solver | node_partial: for even widths and equal layers the maps show exactly the nodes ten cells away from the layers; node_fails: whenever the two layers differ such a node is missing; hy_fails: the eighth map lacks the first column in every grid. shrink_partial and window_fits: the window keeps the distance from the middle and fits when lattice_x is at least 10 Nfree OMEGA; shrink_fails, last_column_fails: it reads outside when it is larger, and its last column is never written when row_s is odd. direction_spec: unit vectors whose transverse part times Nfree k is the distance from the middle; angle_fails: the angle is wrong whenever the radius before rounding is not an integer. outgoing, incoming: the intensity of plane waves that leave or come in. ey_outgoing, ex_excess: the horizontal components; ex_partial: in vacuum ex is right; ex_fails: in every other medium it is wrong at every point not on the axis i = h and in the middle. intensity_sum, power_sum, horizontal_partial: the polarizations add up. power_spec: the power is the sum over all points of the disc, if it lies in the map. Missing: rounding of numbers, files (the powers are printed through pointers); the cases in which the claim is false. |
| C162 | Objects of the Maxwell solver | average_partial: the mean of the material when each object is resolved by the corners (none inside means no point inside, all inside means all points inside). epsilon_places_partial: the same for the three permittivities of a node, over the cells half a cell beside it. extents: membership in blocks, rods and ellipses, on all grids. average_bounds: always between the bounds of the permittivities. convex_full and shapes_convex: the second condition holds for the eleven convex shapes on every grid. small_fails, hole_fails, thin_fails: spheres and holes of every size in the stated range at the centre of a cell, and every block whose two ends have the same index. rotation_isometry, rotation_axis, ellipsoid_sphere: the Euler rotation. sphere_partial: grids of cubes; sphere_fails: every grid that is finer along z; ellipsoid_units: all grids. cone_partial: integer radius at integer heights; cone_fails: every other positive radius. contour_partial: the points of a contour; contour_fails: every point of the area above the level or at the upper edges. random_disjoint: for every stream of random numbers, if the code places n spheres. Missing: the file with the matrix, random rods (the same loop in two dimensions), rounding of numbers; the cases in which the claim is false. |
| C163 | Incoherent dipoles of the Maxwell solver | entries_partial: any number n > 0 of dipoles, the same at each time, times from t0 >= 0 on, all draws. growth_fails: n + 1 calls at any later time. renewal_partial: all waiting times at least one; renewal_fails: any renewal with a shorter waiting time. gauss_phasor: all times; lorentz_partial: positive decay; lorentz_fails: without decay the phasor is right exactly when a cosine or sine is zero. draws: all draws from the unit interval. current_norm, half_sphere: the poles are left out, as gsl_rng_uniform never returns one. deposit_spec, position_nearest: the edges and the node. Missing: int instead of long in random_on, grids with further regions along z (the index uses lattice_z), rounding of numbers, the distribution of the random numbers; the cases in which the claim is false. |
| C164 | Sources of the Maxwell solver | source_spec: real fields, all six functions, all components and signs, single dipoles everywhere and beams and lines at nodes with positive indices. source_imag_partial: imaginary fields except Hy (without minus) of the Gaussian beam and line; sign_fails: there Hy and -Hy leave a field unless it is zero or sqrt(eo/uo) is 0 or 1. planewave_e, planewave_h_partial: Ex and Hy at all columns but the last, which gets half (planewave_edge); planewave_h_fails: the imaginary Gaussian Hy is right exactly when its amplitude is zero or sqrt(eo/uo) is 0 or 1. external_partial: Ex; external_fails: no component but Ex changes, for every Hcomp. line_fails: the Lorentzian line has the ratio of the other sources only if sqrt(eo/uo) is one. paraxial_wave, beam_spec: the beam solves the paraxial wave equation and the code has its amplitude and phase for the direction -z; beam_up_fails: for +z they agree exactly where the sine of the phase is zero; waist_fails: no phase in the plane of the waist. lorentzian_phase: the integral of the cosine part is zero and that of the sine part the largest possible. Missing: plane waves of other components, other tests in external_planewave, rounding of numbers; the cases in which the claim is false. |
| C165 | Polar maps of the far field | disk, azimuth, polar: all points with whole indices, sizes from 2 on. within_partial: odd number of rows, all data; outside_fails: any even number of rows, all maps with at least 200 r + 200 rows. direction_partial: data linear in each index, polar angle at least 0.02; center_partial: below 158 rows only the middle has a smaller angle; center_fails: from 158 rows on the neighbour of the middle has the value of the middle for all data with a slope along x. round_trip, first_line, sum_spec: all maps, any number of files. Missing: counting the lines of a file, names of files (buffers of 20 characters), printing with six digits, tnum below 2, pi with seven digits; the cases in which the claim is false. |
| C166 | Metals and molecules in the grid of the Maxwell solver | metal_spec: all lists of objects for which in_mobject returns a value at the node. eraser: outside of the layers. metal_partial: epsilon_b other than 0, 100, 1000; hundred_fails: outside of the layers the current never changes. layer_fails: any molecule at a node in the layers. units: all frequencies but zero, real and imaginary part of the permittivity. molecule_partial: center on a node; molecule_once: any center; molecule_fails: at least 1/1000 of a cell off all planes of nodes along x. rod_partial: points on the axis, same resolution along all axes; rod_fails: rods along x, other resolutions along z. stagger_fails: objects symmetric about a plane of nodes and bounded on one side. count_partial, places_spec: tabulators between the numbers; count_fails, places_fails: a tabulator after each number. Missing: shapes beyond C162, entries of objects that are not assigned (zero here), rounding of numbers; the cases in which the claim is false. |
| C167 | Tiles of tiled tensors | tiles_listed, listed_order: every number of passes from the number of tiles on. partition: all places and all indices. construct_partial, dense_partial: with an initializer; initializer_fails: without one the constructor succeeds exactly if the filter skips all tiles. transpose_spec: shuffle of the library as documented. strides_spec: any size of an entry. Missing: int and its bounds, tile sizes of zero (division by zero), contract (returns nothing); the cases in which the claim is false. |
| C168 | Cholesky orthogonalisation of the basis | All symmetric matrices, thresholds from zero on. full_partial: as many vectors as functions; full_fails: diagonal one, threshold below one, fewer vectors. lindep_partial: with a Boson of at least one mode and without messages, 1/lindep at most 1/eps. boson_fails, debug_fails: condition number of the overlap from 1/lindep on. Missing: rounding of numbers; dpstrf is the algorithm of its documentation (unblocked, for the columns that are not referenced); the cases in which the claim is false. |
| C169 | Library of the variational QED-HF method | gaussian_partial: last two displacements other than minus one. sentinel_fails: third displacement minus one, for all others but one line. fock_partial: any filled vectors, symmetric density, integrals with the symmetries of real orbitals. Missing: rounding; int overflow of the index; the loops that only change h_pq, which is not used afterwards; the cases in which the claim is false. |
| C170 | One-body part of the propagator of bosons | Fock space: polynomials with multiplication and derivative as creation and annihilation. ham_eq: any complex vectors. shift_iff: real symmetric vectors. shift_partial: vectors of rank one. shift_fails: one diagonal vector with positive entries, at least two modes. bafqmc_spec: the formula, as if the missing imports and the base class were there. Missing: rounding, the sampling of the two-body part (not implemented in the code), the cases in which the claim is false. |
| C171 | Tiled matrices and tensors in Python | Ok and OkT: valid partitions, equal totals, every key once and in range; roundtrip and tiled_roundtrip show them for arrays, prune_spec keeps them. rightTiled_partial: B tiled like the columns of L. rightTiled_fails: witness with sizes 1, 1, 2 and 2, 1, 1. add_fails: any tensor. Missing: out=tiled, matmul_all, types of numbers, arrays of the wrong shape, memory_stats. |
| C172 | Deprecated propagation and weights of the AFQMC classes | Overlap ratio not zero where its logarithm or phase is used. hybrid_partial: the cosine of the imaginary part of cfb is that of the overlap ratio. photon_partial: one mode; photon_fails: two or more modes. The model reads as if the missing names were there. Missing: rounding, the one-body exponential (an argument), the mean-field shift left out of the one-body part (a FIXME of the code), several walkers, and the cases in which the claim is false. |
| C173 | Triangular lattice of the Maxwell solver at the Gamma point | gamma_bloch: all materials and sizes, any imaginary arrays. gamma_tri_partial: even isize, no absorbing layer along x and y, no molecules. gamma_odd_fails: odd isize of three or more, any fields and steps. Missing: parities, molecules, rounding, and odd sizes, for which the claim is false. |
| C174 | Site modes, full matrix of the modes and density matrix of the bosons in the full CI | ebNew_spec: equality with contract_eb (C84) for numbers per mode. ebNew_uniform: at least as many modes as orbitals. ebNew_fails: matrices, numbers of strings other than the number of orbitals. ebNew_one_fails: one electron of each spin. bbFull_partial: one mode and the missing names present; bbFull_fails: all arguments, names missing; bbFull_modes_fails: two or more modes with the names present. rdm1p_partial: the module has nsite equal to norb, no more modes than orbitals; rdm1p_fails: otherwise. Missing: an nsite of another value, the argument out of contract_bb_full, rounding. |
| C175 | Deprecated force bias and the energies that use it | force_bias_partial, force_bias_gauge: given the documented overlap matrix, invertible for the first, no bosons. force_bias_fails: all walkers. force_bias_transposed_fails: a walker for which the matrix of trial_walker_ovlp_base gives another Green function. stored_bias_fails: equivalence with vanishing Coulomb energy. qed_energy_partial: two spin components, attribute present. qed_photons_fails: one mode, product of a number state and any electrons. Missing: the energy with one component in QEDAFQMC, the dipole self energy of its constructor, rounding. |
| C176 | Integrals of the deprecated class QEDAFQMC | dse_spec: the operator identity, with eri_DSE as two-body part. integrals_partial, one_body_fails: missing names given, orthonormal basis, quadrupole integrals of a complete basis (complete_basis: met by positions multiplied as matrices); one_body_fails: states with the density matrix of occupied orbitals, symmetric dipoles. shift_fails: states with the density matrix of the trial. Missing: overlap of the basis functions, exp_h1e and the decomposition of eri, rounding. |
| C177 | Overlaps of excited determinants with a walker | excited_partial: missing names given, Green function with the occupied orbital first, indices in range, no orbital left twice; the excited determinant keeps the order of the reference, so the sign of permutation_sign is not included. axes_fails: even with the names. ones_fails: a walker for every reference and every single excitation. One walker. Missing: several walkers in one array, rounding. |
| C178 | Line shapes | gauss_spec, lorentz_partial, lorentz_area_fails: positive width. width_fails: all other widths. Missing: arrays of positions, rounding. |
| C179 | Discrete auxiliary field of a site | mean_spec, weight_spec: any probabilities. overlap_spec: nonzero overlap. importance_partial: nonzero overlaps, probabilities that are positive numbers. sites_spec: missing names given. Missing: the probabilities (calculate_overlap_ratio is a comment), charge_factor, update of the inverse overlap, several walkers in one array, rounding. |
| C180 | Coulomb and exchange matrices with dressing factors | numba_j_partial: even factor, symmetric tensor and density matrix, missing names given. numba_k_partial: equal displacements. chols_partial: one mode, missing name given. modes_fails: first factor not one, second not zero. Missing: the transformation of the density matrix, the factor itself (C-claims on the FC factor), with_j and with_k, rounding. |
| C181 | Occupation numbers of the Gutzwiller codes | aufbau, minimal: the permutation sorts the energies. count_partial: even number of electrons. warns_partial: at least two electrons, not all orbitals occupied. Missing: odd numbers of electrons, NaN energies, text of the messages, rounding. |
| C182 | Low-rank factors of a Cholesky matrix | error_eq, error_le: decreasing singular values (error_le: nonnegative), unitary factors. scale_fails: positive tolerance. Missing: the relative tolerance, rectangular matrices (refused by the code), the library function, rounding. |

## Plan per property

| id | modelled code | proof |
|----|---------------|-------|
| C01 C02 | `branching_dp0` as two-pointer loop on the weight-sorted record list, random stream explicit | induction on the loop; multiset/permutation argument for sort |
| C03 | same loop, one pair; uniform random number | integral over [0,1] of a step function |
| C04 | same | counterexample for signed weights, `_partial` for non-negative weights |
| C05 | `branching_dp_constant`, `branching_dp_dynamics` | counts by induction; counterexample for weight |
| C06 C07 | `stochastic_reconfiguration` two-pointer loop with index error as a value | loop invariant; counting of grid points in an interval |
| C08 | `comb_resampling` with numpy's left `searchsorted` | same counting lemma, half-open on the other side |
| C09 | copies as a function of the offset | integral of a floor difference |
| C10 | `population_control_factory`, `control_func_dict` | case analysis for all strings |
| C11 | `branching_population_control` | list induction, integral for the killed part |
| C12 | `BaseWalkers.__init__` counters | arithmetic |
| C13 | `inter_node_rebalance` | the code never sends: counterexample, `_partial` for the plan |
| C14 | `weight_control` over `Fin s` processes | algebra; counterexample where clipping is not by the documented bound if found |
| C15 | state machine of `update_weight` and `weight_control` | invariant by induction over operations |
| C16 | pack/unpack | counterexample for stale arrays, `_partial` for packed arrays |
| C17 | `property_stack`, run loop | induction over steps |
| C18 | `rescale_fbias` | counterexample for bound < 1, `_partial` for bound ≥ 1 |
| C19 | `update_weight` | real analysis |
| C20 | `propagate_exp_op` | induction, exponential series |
| C21 | two-body propagation factors | algebra |
| C22 | `GF` and the overlap | matrix algebra |
| C23 | `bilinear_decomposition` | ring identity in a non-commutative algebra |
| C24 | half-rotated energies | finite sums; counterexample for the compiled variant |
| C25 | `local_eng_eboson` | counterexample for two modes, `_partial` for one mode |
| C26 | `local_energy` over processes | sums over sigma types; counterexample for the electron-boson class |
| C27 | `read_fcidump` | invariant over lines; counterexample for the bra-ket swap |
| C28 | `chols_blocked` main loop | invariant by induction over pivots |
| C29 | `tools.py` helpers | list arithmetic; counterexample for constant series |
| C30 | option merging with shared dictionary | counterexample by a history of two constructions |
| C31 | triangular packing | induction on triangular numbers |
| C32 C33 | displacement kernels | finite sums, `HasDerivAt`; counterexample for the missing term |
| C34 C35 | photon energy, dressed one-electron term | `HasDerivAt`, hyperbolic identities |
| C36 | DSE mean field | matrix algebra |
| C37 | in-place normalisation as a heap effect | counterexample |
| C38 | `get_bosonic_Ham` | case analysis on block indices |
| C39 C40 C41 | Franck-Condon factors, energy, gradients | `HasDerivAt` |
| C42 | `get_cholesky` swap | counterexample; correct order proved |
| C43 | `get_veff` incremental | induction over history |
| C44 | SCF driver as a state machine | loop invariant |
| C45 | parameter vector | case analysis on switches; counterexample |
| C46 | `make_rdm1_org` | counterexample |
| C47 C48 C49 | FCI contractions | functions on occupation indices, non-commutative algebra |
| C50 C51 C52 | CC driver | list round-trip; counterexamples |
| C53 | `rk4` | ring identity |
| C54 C55 | surface hopping | loop model; counterexamples |
| C56 C57 | lattice models | index case analysis, finite sums |
| C58 | `set_backend` | string parsing, state machine; counterexample |
| C59 | logger | finite case analysis |
| C60 C61 | boson trials | real analysis, exponential series |
| C62 C63 C64 | small decision logic | arithmetic, case analysis |
| C65 C66 | population control inside the run loop, recorded totals | induction over control steps; counterexample below ten walkers |
| C67 | seeding on several processes, `debug_mpi` | streams as functions; counterexamples |
| C68 | measurement buffers over two runs | arithmetic of step counters; counterexample |
| C69 | two-body propagation averaged over fields | Gaussian integrals with complex shift |
| C70 | `orthogonalise` with QR as a relation | matrix algebra; counterexamples |
| C71 | `get_vbias`, force bias of a step | Jacobi's formula for the derivative of a determinant |
| C72 C73 | exchange energies, block sizes, stochastic resolution of identity | finite sums; expectation over signs; counterexample |
| C74 C75 | shell lookup, coupling chunks | list arithmetic; counterexample |
| C76 C77 | autocorrelation functions, blocking analysis | finite sums; counterexamples |
| C78 | options of the walkers | case analysis; counterexample |
| C79 | displacement operator | matrix elements; counterexample |
| C80 C81 | photon populations, bilinear energy | finite sums; counterexamples |
| C82 | two Cholesky routes | matrix algebra |
| C83 C84 C85 C86 | FCI contractions with photons | sums over link tables, abstract excitation operators |
| C87 C88 C89 C90 | stages of the MQC step, coefficient equation, drivers, velocity Verlet | algebra; counterexamples |
| C91 C92 C93 | aggregates, Hubbard-Holstein energy, electron counts | linear algebra, calculus |
| C94 | when branching changes a population | case analysis |
| C95 | optimal force bias | second moment of the weight |
| C96 C97 | `Phaseless.build`: shifted one-body part, joint fields | operator identities in an algebra; counterexamples |
| C98 | shared fields of electrons and bosons | Gaussian integrals; counterexample |
| C99 | orthogonalisation schedule | induction over events, gauge invariance |
| C100 | exact free propagation | matrix exponentials, induction over steps |
| C101 C102 C103 | multi-determinant trial | list arithmetic; linear independence of minors; permutation signs |
| C104 | initial bosonic trial states | series of amplitudes; counterexamples |
| C105 | `FakeComm` | state machines side by side; counterexamples |
| C106 | splitting of a step | second-order expansions in a Banach algebra |
| C107 | force bias in the average | contour shift by a recursion for Gaussian moments |
| C108 | one step as imaginary-time evolution | tensor products, Gaussian moments with remainder estimates, determinants as sums of products |
| C109 | weights along a run | induction on the events with explicit importance ratios |
| C110 | force bias of the trial | contractions as matrix products; a two-component orbital for the converse |
| C111 | one step of electrons and bosons | Kronecker products, Gaussian average with a drift of second order, mixed estimates as derivatives of overlaps |
| C112 | one step with the mean-field bilinear term | product of an electronic average and a bosonic exponential, splitting error of second order, a closed shell with one mode for the converse |
| C113 | mean fields of the product formalism | averages of lists: permutation, scaling, splitting; two walkers with one mode for the converse |
| C114 | optimised and unoptimised T1 and T2 residuals | programs of einsum statements expanded to polynomials of tensors; certificates of equality (renaming of dummy letters, symmetries) checked by the kernel, soundness proved once |
| C115 | photon residuals as derivatives of the energy | dual numbers for the coherent-state variable; the derivative of a program as a program |
| C116 | U11 as derivative of T1 | as C115, one derivative |
| C117 | U21 as derivative of T2 | as C116; difference of the optimised file as an explicit sum, two modes for the converse |
| C118 | U12 as second derivative of T1 | two nested dual numbers; explicit differences |
| C119 | U22 as second derivative of T2, one mode | letters of modes identified when there is one mode |
| C120 | functions for one mode | as C119, cases of the truncation |
| C121 | T1, T2 as equations of transformed integrals | the transformed arrays as blocks of a second tensor program, comparison of normal forms, sums written out |
| C122 | fixed points of the iteration | C121 with the diagonal of the Fock matrix added, C115 and C116 for the photon part |
| C123 | definedness and truncation of the residuals | execution with errors, static check for the finitely many programs, frame lemma |
| C124 | consistency of F and I | spin orbitals as columns cut by position, sums over spin blocks, symmetry of the densities |
| C125 | photon part of the CC integrals | contraction with the density, comparison of shifted and dressed core matrices, reads and writes of the object |
| C126 | error vector of the accelerated iteration | lists of matrix entries, conjugate transposes, trace form for stationarity |
| C127 | local problem of the Gutzwiller approximation | 3 by 3 eigenproblem solved by orthogonality of columns, derivative of a trace |
| C128 | runs of the Gutzwiller approximation | invariant over the list of cycles, trace of the density for the start |
| C129 | conductivity of hyperbolic materials | real parts, count of passed frequencies, scaling of square roots |
| C130 | variational Monte Carlo | sums over fibres of the samples, quotient rule, reads of the object as a program |
| C131 | spin objects | entries of small tensors in an algebra, cases over shapes, fold of the keyword update |
| C132 | strings, densities and diagonal of the full CI | sign counts of strings over finite sets, adjoints of tables, case analysis of double excitations |
| C133 | energy offset of the population control | sums over zipped lists, sign of the distance to the target |
| C134 | projected matrix of the eigensolver | fold of writes with disjoint cells, invariant over the sequence of blocks |
| C135 | integrals for the full CI | operator identity over tables, broadcasting rules, trace identities |
| C136 | dipole basis of the strong coupling mean field | loop invariant for the counter, block rotations of a diagonal form, folds over the modes |
| C137 | self energy matrices of the boson class | reordering of sums, trace identities, antisymmetry |
| C138 | integrals of the Monte Carlo class | uniqueness of the positive root turns the singular value decomposition into a spectral one; list sums over fields; C135 gives the operator |
| C139 | hopping probabilities | flows of the documented equation; real parts of products; error of range |
| C140 | Hubbard routines of the full CI | number operators of the link tables are diagonal; occupations are idempotent |
| C141 | further electronic estimators | reordering of sums; shapes of arrays; induction over the parts of the processes |
| C142 | order of operations | events of a run as a list; induction on the number of steps |
| C143 | gradients in one loop | reordering of sums; parity of the factors; two orbitals computed |
| C144 | one cycle of the SCF with displacements | closed form of the self energy for a symmetric density, energy with mixed displacements, two orbitals whose first step makes the displacements equal |
| C145 | bilinear propagation by orders | induction over the order, powers on an eigenvector, exponential and geometric series |
| C146 | Hubbard integrals over orbitals | sums over one site, cases over spins, antisymmetry brings every block to one of nine |
| C147 | Fock matrix and orbitals of the Hubbard-Holstein model | expansion of the energy around a density, sums over block diagonal matrices, an explicit set of orbitals |
| C148 | selection of states and spectra of aggregates | Cauchy-Schwarz with signs, an invariant of the selection loop, a dimer with its eigenvectors |
| C149 | energy of the initial coherent state | ladder relation of the amplitudes, sums shifted by one |
| C150 | compiled kernels of the Monte Carlo code | flat memory with none outside, positions by division and remainder, alternating sums |
| C151 | compiled displacement matrix | folds of writes to disjoint positions, packed positions as a bijection |
| C152 | time step of the Maxwell solver | folds of cell updates to a cellwise formula, telescoping fluxes, curl bounded by the gradient on a torus |
| C153 | metals and absorbing layers | one component at a time by clearing denominators, energy balance summed with the adjoint curls |
| C154 | grid of the Maxwell solver | Euclid by strong induction, loop invariants of the exchange loop, permutations of positions, pieces of a monotone map |
| C155 | Distribution of the Maxwell grid over processes | up/down inverse by cases, ring by iterating modulo; partition by division with remainder, the cell after the remainder and the last process as witnesses; search loop over consecutive numbers by induction |
| C156 | Bloch boundaries of the Maxwell solver | two real arrays as one complex field by components; continuation by integer division, lattice translation of the update; copy loops with disjoint sources and targets; phases by cos + i sin |
| C157 | Mirror planes of the Maxwell solver | one-dimensional folding of differences for both kinds of positions; values after the three assignment loops by cases; on a plane the update vanishes term by term |
| C158 | Fields reported at the nodes of the Maxwell grid | one-dimensional folding of sums, twice for the magnetic means; boundary values of the crystal from the copy loops; phases as complex numbers; nodes of a row by division with remainder |
| C159 | Losses and energies reported by the Maxwell solver | loops with real bounds as integer intervals; telescoping sums for the flux through a closed surface; witnesses: a sheet of flux and an eddy without sources |
| C160 | Fourier transform of the far field | bit reversal as reversed digits with the carry loop as increment from the left; butterflies as complex numbers; invariant of the stages: transforms of the residue classes; geometric sums for the inverse |
| C161 | Far field of the Maxwell solver | windows by linear arithmetic; directions from square roots; plane waves with transverse fields by linear combinations of the two relations between the components |
| C162 | objects of the Maxwell solver | fold over the objects with the values at the points as invariant, trilinear interpolation of convex bodies, parity of twenty times the coordinate for thin films, sums of squares for rotations |
| C163 | incoherent dipoles of the Maxwell solver | invariants of the counter over calls and times, induction on the waiting time, phasors in the complex plane |
| C164 | sources of the Maxwell solver | table of shifts and factors, sums of writes over the plane with one term for each place, sum of two sines, derivatives of complex Gaussians, arctangent in the complex plane |
| C165 | polar maps of the far field | whole numbers beside a tolerance of 0.1 and 0.01, arccosine and its sine, floor and ceiling with linear data, bounds of pi and the cosine, folds of writes at places without repetition |
| C166 | metals and molecules in the grid of the Maxwell solver | fold over the objects, link to the updates of C152, squares of whole numbers below a tolerance, greatest metal node of a symmetric set, counts of characters in texts |
| C167 | tiles of tiled tensors | number of an index with mixed radices, one step of the loop adds one, induction on the fuel, quotients and remainders, fold of insertions into the map |
| C168 | Cholesky orthogonalisation of the basis | invariant of the reachable states (sum of outer products, zero columns of the rest), triangular determinant, rank of products, maximum of a list below a bound |
| C169 | library of the variational QED-HF method | injectivity of exp, injectivity of the row-major index, writes to different places commute, exchange of summation indices |
| C170 | one-body part of the propagator of bosons | polynomials as Fock space, commutators of derivations, one-body integrals read from their operator, completing squares |
| C171 | tiled matrices and tensors in Python | first edge beyond an index, folds of writes at distinct keys as sums, sums over tiles |
| C172 | deprecated propagation and weights of the AFQMC classes | cosine of the argument, bounds by the clip along calls, loops as truncated series of matrices on the product space |
| C173 | triangular lattice of the Maxwell solver at the Γ point | real parts of folds of assignments, reuse of C156 with phase one |
| C174 | site modes, full matrix of the modes and density matrix of the bosons in the full CI | loops as boson operators of C47, diagonal excitations, adjointness, squares |
| C175 | deprecated force bias and the energies that use it | cyclic traces, inverses of products, exchange of sums |
| C176 | integrals of the deprecated class QEDAFQMC | anticommutation relations, exchange of sums, sums of squares |
| C177 | overlaps of excited determinants with a walker | writes that agree with a table, determinant of one plus a product |
| C178 | line shapes | integrals of the Gaussian and of 1/(1+x²), change of variables |
| C179 | discrete auxiliary field of a site | integral of a step function, determinant of one plus a product |
| C180 | Coulomb and exchange matrices with dressing factors | exchange of summation indices, one-entry density matrices |
| C181 | occupation numbers of the Gutzwiller codes | sorting permutation, comparison with a level between occupied and empty orbitals |
| C182 | low-rank factors of a Cholesky matrix | Frobenius norm of a truncated singular value decomposition |
