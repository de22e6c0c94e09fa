# Verification of mcvine: design

Subject: the mcvine source tree in `/repo` (Python and C++), read as text.
Nothing in `/repo` is executed.  The model is a hand translation into Lean 4.

## Layout

* `lean/Verif/Model/*.lean` — definitions that follow the source function by
  function.  Every definition cites the file and the lines it models and says
  what was simplified.
* `lean/Verif/Spec/*.lean` — small specifications written without using the
  model's helpers (list/arithmetic/set vocabulary only).
* `lean/Verif/Lemmas/*.lean` — helper lemmas.
* `lean/Verif/Props/*.lean` — the property theorems only, each followed by an
  `example` showing a concrete non-trivial case which meets the hypotheses.

Theorem names start with the property id (`C01_...`).  `_partial` marks a
theorem that proves less than the statement in `properties.jsonl`; the comment
above it says what is missing.  `_false` marks a proved negation
with a concrete witness (a defect of the code).

## Trusted base

* The Lean 4.33.0 kernel, and the three standard axioms `propext`,
  `Classical.choice`, `Quot.sound`.  No other axiom, no `sorry`, no
  `native_decide`, no `bv_decide`.
* Mathlib (its proofs are checked by the same kernel).
* The translation from Python/C++ to Lean by hand.  The comments give the line
  ranges so that it can be reviewed side by side.
* Machine integers are modelled by `Nat`/`Int` (no overflow), floating point
  numbers by exact ordered fields (`ℚ`, `ℝ` or an arbitrary linear ordered
  field).  Rounding is not modelled except where the code itself compares with a
  tolerance.  The operating system is modelled by a map from paths to contents
  with atomic `rename`; random number generators are modelled by an arbitrary
  number handed in as an argument.
* Python exceptions and C++ throws are values (`Except Err`).

## Not modelled

XML parsing, pyre inventory machinery, boost-python glue, the McStas C
components themselves, plotting, web resources, build system, real MPI
transport (messages are modelled as reliable FIFO), thread scheduling inside
C++ (there is none).


## Properties

Status `partial` together with a `..._false` theorem means that the statement is
false of the code: the negation is proved with a witness and the `_partial`
theorem says what remains true.

### C01 Buffered neutron writer is a faithful log — proved

* Modelled: writer state machine (file, buffer) with write/flush/close
* Proof: invariant by induction over the call list

### C02 Cursor reads walk the file cyclically — proved

* Modelled: `Storage.read` branch by branch over a record list
* Proof: closed form `(p+k) mod N`, induction over read sizes

### C03 seek/tell — proved

* Modelled: `seek` with exceptions as values together with the state after the exception
* Proof: case analysis

### C04 idf/Neutron byte format round trip and count — proved

* Modelled: header and records byte by byte (`List UInt8`), doubles as 64 bit patterns, numpy fromstring/tostring/reshape, count, windows, dump and load
* Proof: layout stated by byte offsets; round trip and windows by list lemmas; refinement to the record-level reader of C02

### C05 Merging neutron files is concatenation — proved

* Modelled: `merge` on top of the storage model
* Proof: induction over the list of files

### C06 Normalizing a neutron file scales only the intensity column — proved

* Modelled: chunk loop of `_normalize`
* Proof: induction over remaining count

### C07 In-place normalization is crash safe — proved

* Modelled: file-system op traces, crash = prefix of trace
* Proof: all crash states (prefixes of the call trace, plus torn appends); the trace is proved equal to the functional model

### C08 Merge-and-normalize gives intensity per source neutron — proved

* Modelled: post-processing on lists of (records, samples)
* Proof: algebra over ℚ

### C09 MPI partition covers the requested neutron count — proved

* Modelled: `getPartitions`
* Proof: closed form by induction

### C10 Batched simulation runs exactly the requested number of neutrons — proved

* Modelled: both batch loops and the buffer size computation
* Proof: induction on the loops, closed form

### C11 Steps and ranks never share an output directory — proved

* Modelled: directory name formatter on digit strings
* Proof: injectivity of decimal representation

### C12 Parallel replay of a neutron file hands every node its own consecutive chunk — proved

* Modelled: master cursor + seek + read per rank
* Proof: closed form from C02/C03

### C13 Histogram reduction is independent of the number of nodes — proved

* Modelled: slice arithmetic, per-rank sums, gather with messages
* Proof: induction over ranks

### C14 Concurrent workers can share one fresh work directory — partial

* Modelled: transition system of the workers over a shared work directory
* Proof: negation by two schedules; partial: invariant over all schedules in which the checks come first
* Note: False of the code: each worker checks the work directory after others may have created it: it raises, or with overwriting deletes the output of another worker. Negation proved with a witness; the _partial theorem states what remains.
* Negation proved: `C14_workers_share_dir_false`

### C15 Result cache never confuses different parameter values — partial

* Modelled: `arg_str`, cache path, and the use/keep cache branches over a cache map
* Proof: negation with witness; partial theorem for what remains
* Note: The key ignores parameter values. For one command with fixed parameters any history of invocations gives right results.
* Negation proved: `C15_cache_key_false`

### C16 Changing component frames is a rigid motion and intermediate frames do not matter — proved

* Modelled: `relativePositionOrientation`, `abs2rel` on position and velocity, over any commutative ring
* Proof: instrument-frame coordinates are an invariant; injectivity of lab coordinates gives round trip and chains (induction)

### C17 Orientation angles give proper rotations and can be recovered — proved

* Modelled: `_toMatrix`, `toAngles` with its self check over the reals (`arctan2` = `Complex.arg`)
* Proof: ring identities; cross product identities of a rotation; gimbal branch separately

### C18 Relative placement equals composed placement — proved

* Modelled: register/position/orientation with the two caches, references by element, name or previous; recursion limit as fuel
* Proof: caches are consistent with an inductive specification of placement (invariant over histories); completeness by induction on the reference chain

### C19 Batch frame change agrees with the exact frame change — proved

* Modelled: `is_almost_0/I`, `abs2rel_batch`, `rel2abs_batch` with the three branches
* Proof: exactness for sharp arguments, entrywise error bound for all

### C20 Every event in a batch is scattered exactly once and exactly the survivors remain — proved

* Modelled: the in-place loop with swap-with-last and the appending loop, for any stateful scatterer
* Proof: loop invariant: processed prefix, untouched middle, dead tail; order is a permutation of the input

### C21 Snapshot keeps exactly the live neutrons — proved

* Modelled: filter of the first n
* Proof: list lemmas

### C22 Simulation chain applies components in sequence order — proved

* Modelled: nodes and connections as built by `_create`, the update of a node, outputs pulled through connections (the data-flow engine itself is an external package)
* Proof: induction over the prefix of the chain: pulling a node runs its predecessors in order

### C23 Event area monitor records exactly the neutrons that hit it — proved

* Modelled: the flight to the plane, the filter, the records, the attribute `events` as state
* Proof: records correspond one to one to hits; floor lemmas

### C24 Detector pixel numbering is injective and in range — proved

* Modelled: `EventModeMCA::accept` with 32 bit pixel numbers, the tube kernel, the visitor computing the dimensions on a tree with copies
* Proof: row-major number by induction on the levels; invariant of the visitor (mutual induction on the tree)

### C25 Time and height channels — proved

* Modelled: `Tof2Channel`, `Z2Channel` and the construction of a tube from the positions of its pixels (reals)
* Proof: floor lemmas; sqrt algebra

### C26 Histogram monitors count additively — proved

* Modelled: the engine, histogramdd as equidistant bins with the last one closed, dump per batch, axis boundaries
* Proof: sum over counted neutrons by induction over neutrons and batches

### C27 Point location implements solid geometry — proved

* Modelled: the visitor on the whole tree of shapes over the reals, tolerance as in the code
* Proof: specification as sets of points; structural induction; neighbourhoods for interior and exterior

### C28 Bounding boxes enclose the shape — partial

* Modelled: the visitor on the whole tree, rotations as in the code
* Proof: structural induction; partial: rotations that map axes to axes
* Note: False for general rotations, see C75.

### C29 Ray/shape intersections lie on the surface and none is missed — partial

* Modelled: every primitive intersector branch by branch (rectangles, triangles, cylinder side and ends, sphere, cone), compositions with the border filter and sort, transformations
* Proof: intervals of a line in a convex set; soundness through the locator; completeness by local constancy of membership off the reported times. Partial: cones, and paths touching edges
* Note: Partial: cones are not covered by the soundness and completeness theorems; boxes need a path away from the edges (C76).

### C30 Only forward intersections are used and the nearest hit is chosen — partial

* Modelled: `forward_intersect`, `find_1st_hit` with both branches, `find_shape_containing_point`
* Proof: filter lemmas; membership is constant between crossings; partial: paths in general position, objects that do not overlap
* Note: Partial: the reported object is the first one; that one is always reported is false, see C77.

### C31 Attenuation is a physical transmission factor — partial

* Modelled: `calculate_attenuation` of the homogeneous scatterer with the loop over the crossings, on the solid model
* Proof: specification: speed times Lebesgue measure of the times spent in the shape; loop invariant over the sorted crossings; additivity and scaling of the measure. Range and totality without any hypothesis on the path
* Note: Partial: the exact value needs a path in general position (crossings complete, see C76; middles between crossings not within the tolerance of a surface). The attenuation of a composite is a separate property.

### C32 Propagation to a surface is a straight flight forward to the nearest surface — partial

* Modelled: all functions of neutron_propagation.cc branch by branch on the solid model
* Proof: case analysis; membership is constant between crossings
* Note: Partial: what is met along the way is proved for paths in general position and shapes without cones.

### C33 A composite scatterer creates no intensity and asks only constituents on the path — proved

* Modelled: CompositeNeutronScatterer_Impl.cc function by function, constituents as arbitrary stateful objects; recursion of the single mode with fuel
* Proof: one generic invariant over all loops (state property, predicate on probabilities, weighted sum), instantiated for intensity, number of neutrons and calls; frames by orthogonality

### C34 Importance-sampled interaction choice is unbiased — proved

* Modelled: `interact_path1`, `_interactM1`, `mu` of HomogeneousNeutronScatterer branch by branch over the solid model; the two random numbers are arguments; the kernel is any stateful object
* Proof: specification: expectation as interval integral over the random numbers, a probe kernel that notes down what it is given; step functions and change of variable; no integrability hypothesis on the observable is needed

### C35 Random selection of a kernel is unbiased — proved

* Modelled: constructor, `select_kernel`, `scatter`, `absorb`, both coefficients of CompositeScatteringKernel.cc; constituents are arbitrary stateful kernels; the random number is an argument
* Proof: expectation as an interval integral; the loop over cumulative weights by induction on the list with integrability; any observable

### C36 Scattering kernels conserve energy and momentum — partial

* Modelled: unit conversions, axes, `S` of the S(Q,E), energy focusing, S(Q), S(Q vector), isotropic, constant-(Q,E), constant-E, constant-vector-Q and E(Q) kernels branch by branch over the reals, NaN and infinity as `none`
* Proof: vector algebra; specification through energy and wave vector of the velocities only
* Note: Partial: kernels with this basis need a direction of flight outside of the layer around the z axis; accuracy inside the layer is proved for S(Q,E). The constant-(Q,E), constant-E, constant-vector-Q, isotropic and S(Q vector) kernels are exact for all neutrons.
* Negation proved: `C36_layer_false`

### C37 Powder diffraction scattering does not depend on history — partial

* Modelled: constructor, `scatter`, both coefficients of SimplePowderDiffractionKernel.cc, `mcni::rotate`, integer random numbers; the member `m_d_phi` is threaded through
* Proof: vector algebra for Bragg angle; expectation over the index by splitting [0,1]; histories as lists of neutrons
* Note: Partial: independence of history is proved without focusing (d_phi = 0). Momentum transfer, choice of peaks, coefficient and expected weight are proved in full for kernels without line width. An empty list of peaks is undefined behaviour in the code and excluded by the hypotheses.
* Negation proved: `C37_history_false`

### C38 Single-crystal Bragg scattering has the right expectation — proved

* Modelled: `setup_tau_info_list`, `scatter`, `scattering_coefficient`, the constructors and the python binding; random numbers are arguments, normal ones too
* Proof: integral of a step function over the cumulative reflectivities; the tangential plane does not contain the origin, so the direction is always defined

### C39 Binary search in a sorted table — partial

* Modelled: `find_1st_bin_larger_than` for any linear order
* Proof: invariant of the bisection; negations with three and five entries; partial: strictly increasing tables and values other than the last entry
* Note: False of the code: `<=` in search.icc:16 makes the value of the last entry count as larger than all; with repeated entries the first is not found. Negation proved with a witness; the _partial theorem states what remains.
* Negation proved: `C39_last_false`, `C39_equal_false`

### C40 Linear interpolation is exact on multilinear data and stays within the data range — proved

* Modelled: interpolate.h, LinearlyInterpolatedGridData_1D/3D.icc, NNGridData_3D.icc over the reals
* Proof: floor lemmas; polynomial identities; convex combinations

### C41 Periodic dispersion is periodic — proved

* Modelled: `decimal_part`, `reducedQ`, `energy`, `polarization` of PeriodicDispersion_3D.cc over an arbitrary core dispersion
* Proof: dual basis and floor lemmas

### C42 Density of states follows its data and is zero outside its range — proved

* Modelled: constructor, `_compute_sod`, `value` of LinearlyInterpolatedDOS.icc, `operator()` of AbstractDOS.h, `linear_regression1`
* Proof: cells of the energy axis (Table); least squares by completing the square

### C43 Phonon data files round trip — partial

* Modelled: readers and writers of E, Q, Omega2, Polarizations, Sqe, DOS over lists of bytes; how a double is stored in 64 bits is left open; `struct.pack` may raise after the file has been opened
* Proof: byte lemmas for all lengths; negations with witnesses; partial: numbers of branches that are multiples of D, densities of states from 0 on
* Note: False of the code: `Omega2.write` divides the number of branches by D and drops the remainder, so that the file cannot be read (Omega2.py:21,36); comments that are not ascii raise after the file was opened for writing (E.py:14-17), comments above 1024 characters are cut; densities of states that do not start at 0 are moved to 0 (DOS.py:27,44). Negation proved with a witness; the _partial theorem states what remains.
* Negation proved: `C43_frequencies_false`, `C43_comment_false`, `C43_long_false`, `C43_dos_false`

### C44 Multiphonon spectra are normalised convolution powers — partial

* Modelled: `reflected`, `convMatrix`, `AnE_from_n_1`, `computeAnESet` on lists
* Proof: the matrix product is a convolution (index shift); generating functions for the powers; negation with three points
* Note: False of the code: what lies beyond the axis is cut off and the rest scaled up; with the threefold axis of `sqe` this concerns four and more phonons (multiphonon.py:54-56, 159-177). Negation proved with a witness; the _partial theorem states what remains.
* Negation proved: `C44_truncated_false`

### C45 Component facility names decode what was encoded — partial

* Modelled: `_encode` and `_decode` over lists of characters, with split, strip and join of Python
* Proof: string lemmas about splitting at separators; negations with witnesses; partial: round trip but for the supplier, for parts without special characters
* Note: False of the code: the supplier is not encoded (NeutronComponentFacility.py:147-150), an argument with a slash makes decoding fail with ValueError (line 164), a single empty argument is lost (lines 173-176). Negation proved with a witness; the _partial theorem states what remains.
* Negation proved: `C45_supplier_false`, `C45_slash_false`, `C45_empty_false`

### C46 Registries behave like maps — partial

* Modelled: `Registry` with `register`, `getFactory`, `getInfo`, `importAllComponents` as state transformers that keep what was changed before an exception; the file system is an argument
* Proof: invariant over histories; negations with one repository; partial: all modules are complete
* Note: False of the code: `register` changes its tables one after the other (Registry.py:31-37): a module without `info` raises at the first request and is handed out at the second, one without `factory` stays in the list of types. Negation proved with a witness; the _partial theorem states what remains.
* Negation proved: `C46_retry_false`, `C46_listed_false`

### C47 Component group leaves its input untouched and gives every member the same neutrons — proved

* Modelled: `ComponentGroup.process` over a heap of buffers, so that aliasing is visible; members are arbitrary state transformers of heap and shared state that do not own the input buffer
* Proof: induction over the members; places by C16 and C19
* Note: Members get only the neutrons of positive probability, since `snapshot` drops the others; the frames of C47_place have no displacement below the tolerance of C19.

### C48 Reciprocal basis — proved

* Modelled: `get_inversions` over the reals, a division by zero as `none`
* Proof: polynomial identities in the triple product

### C49 Momentum transfer of a reflection — partial

* Modelled: `q`, `d` of calcpeaks.py and `_q` of laz.py for a lattice given by its matrix and the inverse matrix (diffpy is not in the repository)
* Proof: uniqueness of the reciprocal basis; for lattices in standard orientation the LAZ reader is right for all reflections exactly if the basis is orthogonal; negation with a hexagonal lattice
* Note: False of the code: `_q` of laz.py takes the rows of the reciprocal matrix instead of the columns (laz.py:137-139). Negation proved with a witness; the _partial theorem states what remains.
* Negation proved: `C49_laz_false`

### C50 Root bracketing finds only real roots — proved

* Modelled: `FindRootsEvenly::solve`, `zridd`, `sign`, `check_answer` over the reals; the exceptions of `zridd` are caught as in the code
* Proof: invariant of the loop: a bracket inside the former one and at most half as long, with the last guess at one end; intermediate value theorem

### C51 Flushed neutrons are in the file — partial

* Modelled: same writer state machine, state after flush
* Proof: negation with witness; partial by invariant
* Note: False of the code: `Storage.flush` hands the neutrons to the Python file object but never flushes it, so the file can still be empty after flush. Negation proved with a witness; the _partial theorem states what remains.
* Negation proved: `C51_flush_not_durable_false`

### C52 Writing to a closed storage is reported — partial

* Modelled: same writer state machine, state after close
* Proof: negation with witness; partial
* Note: False of the code: `write` after `close` buffers silently; the neutrons never reach the file. Negation proved with a witness; the _partial theorem states what remains.
* Negation proved: `C52_write_after_close_lost_false`

### C53 Reading zero neutrons reads nothing — partial

* Modelled: Storage.read with Python truthiness of n
* Proof: negation with witness; partial
* Note: False of the code: `read(0)` reads the whole rest of the file (`n or default` truthiness). Negation proved with a witness; the _partial theorem states what remains.
* Negation proved: `C53_read_zero_false`

### C54 A refused seek leaves the cursor alone — partial

* Modelled: seek returning the state together with the exception
* Proof: negation with witness; partial
* Note: False of the code: `seek` assigns the cursor before checking the range. Negation proved with a witness; the _partial theorem states what remains.
* Negation proved: `C54_failed_seek_moves_cursor_false`

### C55 A wrapping read at the end of the file starts over — partial

* Modelled: Storage.read at cursor = N
* Proof: negation with witness; partial
* Note: False of the code: a wrapping read with the cursor exactly at the end of the file raises instead of starting over. Negation proved with a witness; the _partial theorem states what remains.
* Negation proved: `C55_wrap_after_end_false`

### C56 Library merge-and-normalize handles runs in which no neutron was stored — partial

* Modelled: both post-processing functions
* Proof: negation with witness; equality when something was stored
* Note: False of the code: `merge_and_normalize` of the library raises ZeroDivisionError for an empty result. Negation proved with a witness; the _partial theorem states what remains.
* Negation proved: `C56_lib_merge_empty_false`

### C57 Normalizing a detector event file is crash safe — partial

* Modelled: file-system op trace of numpy tofile
* Proof: negation with a crash state; partial over all crash states
* Note: False of the code: `normalizeEventFile` overwrites the event file in place. Negation proved with a witness; the _partial theorem states what remains.
* Negation proved: `C57_event_normalize_crash_false`

### C58 A neutron file with a torn last record can still be loaded — partial

* Modelled: byte level readers on a file with a torn tail
* Proof: negation with witness; partial theorem for what remains
* Note: False of the code: `readall`/`load` raise for a file with an incomplete last record although the complete records are readable. Negation proved with a witness; the _partial theorem states what remains.
* Negation proved: `C58_torn_file_load_false`

### C59 The neutron count in the header is right — partial

* Modelled: header written by `dump` and `write`
* Proof: negation with witness; partial theorem for what remains
* Note: False of the code: `dump` passes a flat array, so the header says 10 n. Negation proved with a witness; the _partial theorem states what remains.
* Negation proved: `C59_header_count_false`

### C60 The format check recognises neutron files — partial

* Modelled: checkformat and the header check of load
* Proof: negation with witness; partial theorem for what remains
* Note: False of the code: `checkformat` refers to the undefined name `f` and raises NameError for every file. Negation proved with a witness; the _partial theorem states what remains.
* Negation proved: `C60_checkformat_false`

### C61 Writing neutrons leaves the array of the caller alone — partial

* Modelled: write with the caller's array as part of the result
* Proof: negation with witness; partial theorem for what remains
* Note: False of the code: `write` assigns `neutrons.shape = -1,` on the caller's array; a second write of the same array stores a wrong count. Negation proved with a witness; the _partial theorem states what remains.
* Negation proved: `C61_write_changes_argument_false`

### C62 Every node of a parallel run gets a share — partial

* Modelled: `getPartitions` and the indexing by rank
* Proof: negation with witness; partial theorem for what remains
* Note: False of the code: with fewer neutrons than nodes the list of shares is shorter than the number of ranks and the others fail with IndexError. Negation proved with a witness; the _partial theorem states what remains.
* Negation proved: `C62_every_rank_gets_share_false`

### C63 A run of zero neutrons is accepted — partial

* Modelled: the batch loops and the automatic buffer size
* Proof: negation with witness; partial theorem for what remains
* Note: False of the code: zero neutrons give a buffer size or a divisor of zero and ZeroDivisionError in the application runner and the parallel script runner. Negation proved with a witness; the _partial theorem states what remains.
* Negation proved: `C63_zero_neutrons_false`

### C64 Keeping a result in the cache runs the command the user gave — partial

* Modelled: the command string rebuilt from `arg_str`
* Proof: negation with witness; partial theorem for what remains
* Note: False of the code: the rebuilt command lists parameter names without values. Negation proved with a witness; the _partial theorem states what remains.
* Negation proved: `C64_rerun_command_false`

### C65 Small displacements between components add up correctly — partial

* Modelled: `abs2rel_batch` along a chain of frames
* Proof: negation for every chain length n; partial: exact when no consecutive frames nearly coincide
* Note: False of the code: displacements up to 1e-8 are skipped in every step, so that the errors of n steps add up to n*1e-8. Negation proved with a witness; the _partial theorem states what remains.
* Negation proved: `C65_small_displacements_false`

### C66 Angles can be recovered from the matrix of any orientation — partial

* Modelled: `toAngles` with its self check
* Proof: negation with the orientation (90deg, arcsin(1-1e-9), 0); partial: any returned angles are accurate
* Note: False of the code: within 1e-8 of gimbal lock the x angle is dropped and the self check then raises RuntimeError. Negation proved with a witness; the _partial theorem states what remains.
* Negation proved: `C66_recover_all_angles_false`

### C67 Re-registration of an element takes effect — partial

* Modelled: the same caches
* Proof: negation with a history register-query-register; partial: histories without a query in between
* Note: False of the code: the absolute positions computed before are kept in a cache that registration does not clear. Negation proved with a witness; the _partial theorem states what remains.
* Negation proved: `C67_reregister_false`

### C68 A snapshot of more neutrons than present is safe — partial

* Modelled: snapshot with reads beyond the end as undefined behaviour
* Proof: negation with witness; partial theorem for what remains
* Note: False of the code: `snapshot(n)` iterates over `begin .. begin+n` without checking the size. Negation proved with a witness; the _partial theorem states what remains.
* Negation proved: `C68_snapshot_range_false`

### C69 Components of the same name are all simulated — partial

* Modelled: dictionary of nodes by component name
* Proof: negation: the built chain does not depend on the overwritten component; partial for distinct names
* Note: False of the code: the nodes are kept in a dictionary by component name, a component is overwritten by a later one of the same name. Negation proved with a witness; the _partial theorem states what remains.
* Negation proved: `C69_same_name_false`

### C70 Event area monitor assigns every hit to the pixel it hit — partial

* Modelled: the pixel number as computed
* Proof: negation with witness; partial theorem for what remains
* Note: False of the code: the column coordinate is not truncated before it is multiplied by the number of rows. Negation proved with a witness; the _partial theorem states what remains.
* Negation proved: `C70_pixel_false`, `C70_range_false`

### C71 A batch without hits adds no events — partial

* Modelled: the attribute `events` kept between batches
* Proof: negations by execution; partial: induction over batches with hits
* Note: False of the code: `events` is only assigned when there are hits: a batch without hits writes the old events again, or fails if it is the first. Negation proved with a witness; the _partial theorem states what remains.
* Negation proved: `C71_no_hits_false`, `C71_first_batch_false`

### C72 Monitors record only neutrons that reach them — partial

* Modelled: flight to the plane with any sign of the flight time
* Proof: negation with witness; partial theorem for what remains
* Note: False of the code: the flight time may be negative: neutrons behind the monitor are moved back and counted. Negation proved with a witness; the _partial theorem states what remains.
* Negation proved: `C72_flying_away_false`

### C73 Any detector hierarchy can be numbered — partial

* Modelled: the same visitor
* Proof: negation with witness; partial theorem for what remains
* Note: False of the code: an empty container appends to the index shape but not to the layer names: the next container of the level raises IndexError. Negation proved with a witness; the _partial theorem states what remains.
* Negation proved: `C73_empty_pack_false`

### C74 A tube with any positive number of pixels can be built — partial

* Modelled: the tube construction
* Proof: negation with witness; partial theorem for what remains
* Note: False of the code: the tube length is divided by the number of pixels minus one. Negation proved with a witness; the _partial theorem states what remains.
* Negation proved: `C74_single_pixel_false`

### C75 Bounding boxes of rotated shapes enclose them — partial

* Modelled: the rotation case of the bounding box visitor
* Proof: negation with witness; partial theorem for what remains
* Note: False of the code: the box of a rotated shape keeps the longest edge of the unrotated box instead of the rotated corners, too small by up to a factor sqrt 3. Negation proved with a witness; the _partial theorem states what remains.
* Negation proved: `C75_rotated_false`

### C76 A path through the interior of a block is reported to cross it — partial

* Modelled: the rectangle and box intersectors
* Proof: negation with witness; partial theorem for what remains
* Note: False of the code: faces are taken without their edges, so a path through two edges has no intersections. Negation proved with a witness; the _partial theorem states what remains.
* Negation proved: `C76_edges_false`

### C77 An object ahead is found — partial

* Modelled: `find_1st_hit`
* Proof: negation with witness; partial theorem for what remains
* Note: False of the code: only the middle of the first two crossings is examined; two coinciding crossings (e.g. along the axis of a hollow cylinder) hide every object behind. Negation proved with a witness; the _partial theorem states what remains.
* Negation proved: `C77_missed_false`

### C78 Propagation out of a shape is forward in time — partial

* Modelled: `propagate_out`
* Proof: negation with witness; partial theorem for what remains
* Note: False of the code: the last of all intersections of the line is taken, also when it is behind the neutron. Negation proved with a witness; the _partial theorem states what remains.
* Negation proved: `C78_backward_false`

### C79 Multiple scattering mode absorbs at the place of absorption — partial

* Modelled: `_interactM1`
* Proof: negation: neutron in the centre of a ball, observable = time; partial: observables of the velocity, in particular the total weight
* Note: False of the code: the absorbed part is handed to the kernel at the place and time of entry (HomogeneousNeutronScatterer.cc:249-251), so a detector tube in the multiple mode records every neutron on its surface. Negation proved with a witness; the _partial theorem states what remains.
* Negation proved: `C79_place_false`

### C80 A channel with zero weight is never chosen — partial

* Modelled: `interact_path1`, `math::random`
* Proof: negation with u=1; partial: u < 1
* Note: False of the code: `rand()/RAND_MAX` may be 1, then the last channel is chosen even with weight 0 and the probability becomes (sum)/0. Negation proved with a witness; the _partial theorem states what remains.
* Negation proved: `C80_zero_weight_false`

### C81 Attenuation in a composite accounts for where its constituents are — partial

* Modelled: `calculate_attenuation` of the composite
* Proof: negation: absorbing sphere at (0,0,-4), flight from z=-10 to z=-2 gives 1 instead of exp(-4); partial: end points with the same coordinates in all frames; invariance of the attenuation under placement
* Note: False of the code: the start of the flight is converted to the frame of the constituent, the end point is not (CompositeNeutronScatterer_Impl.cc:178-202). Negation proved with a witness; the _partial theorem states what remains.
* Negation proved: `C81_endpoint_false`

### C82 A composite may be a constituent of a composite — partial

* Modelled: the wrappers in CompositeNeutronScatterer.cc as constituents
* Proof: negation with two panes; theorem that any hit is undefined behaviour
* Note: False of the code: `interact_path1` and `interactM_path1` lack a return statement; `calculate_attenuation` is not const and so does not override the virtual function, which returns 1. Negation proved with a witness; the _partial theorem states what remains.
* Negation proved: `C82_nested_false`, `C82_undefined_false`

### C83 The result of a stand-alone scatterer is determined by its inputs — partial

* Modelled: the composite made by a stand-alone scatterer, with an arbitrary value of the member that is not initialised
* Proof: negation with two values; partial: values <= 0
* Note: False of the code: `min_neutron_probability` is not initialised by the constructor of the implementation class. Negation proved with a witness; the _partial theorem states what remains.
* Negation proved: `C83_uninitialised_false`

### C84 The overlap check looks at the constituents where they are — partial

* Modelled: checkShapeOverlap and hasOverlap with the random numbers as arguments
* Proof: negations with two spheres; partial: an overlap that is reported is one of the shapes in their own frames
* Note: False of the code: the shapes are compared in their own frames, positions and orientations are ignored. Negation proved with a witness; the _partial theorem states what remains.
* Negation proved: `C84_alarm_false`, `C84_unnoticed_false`

### C85 The overlap check notices nested shapes — partial

* Modelled: the same
* Proof: negation for all random numbers; partial: crossings that are not outside are reported
* Note: False of the code: only surface points of the first shape are tested against the second, so a shape strictly inside an earlier one is never noticed. Negation proved with a witness; the _partial theorem states what remains.
* Negation proved: `C85_nested_false`

### C86 In the multiple scattering mode every constituent on the path takes part — partial

* Modelled: the loops of scatterM and interactM_path1 with the limits of the constructor
* Proof: negation by running the model on two transparent spheres in line; partial: the first one on the path is always called
* Note: False of the code: the default number of loops in interactM_path1 is 1: after one constituent the neutron is moved to the surface of the composite. Negation proved with a witness; the _partial theorem states what remains.
* Negation proved: `C86_second_false`

### C87 The weight given to a kernel is the one used — partial

* Modelled: `onCompositeKernel` of the renderer and the composite kernel
* Proof: negation with witness; partial theorem for what remains
* Note: False of the code: `w or 1.` turns weight 0 into 1 (KernelComputationEngineRenderer.py:52). Negation proved with a witness; the _partial theorem states what remains.
* Negation proved: `C87_zero_false`

### C88 Mean factor applied by a composite kernel equals its scattering coefficient — partial

* Modelled: the composite kernel with kernels that multiply the probability by their coefficient
* Proof: negations with two kernels; partial: neither flag
* Note: False of the code: with `average`, or with a kernel of total scattering, the coefficient is the mean or that of one kernel while scattering carries the sum. Negation proved with a witness; the _partial theorem states what remains.
* Negation proved: `C88_average_false`, `C88_total_false`

### C89 Absorption coefficient of a composite kernel — partial

* Modelled: `absorption_coefficient`
* Proof: negation with witness; partial theorem for what remains
* Note: False of the code: always the mean (CompositeScatteringKernel.cc:137), although CompositeScatteringKernel.h:37 says only if average is set. Negation proved with a witness; the _partial theorem states what remains.
* Negation proved: `C89_sum_false`

### C90 Coefficients of a rotated kernel belong to the frame of the kernel — partial

* Modelled: `scattering_coefficient`, `tosubkernel`
* Proof: negation with a quarter turn; partial: coefficients depending on the speed only
* Note: False of the code: the velocity is converted to the frame of the constituent for scattering but not for the coefficients. Negation proved with a witness; the _partial theorem states what remains.
* Negation proved: `C90_direction_false`

### C91 Energy focusing stays in its window — partial

* Modelled: `SQE_EnergyFocusing_Kernel::S`
* Proof: window proved for positive weights; negation of the sign with a witness
* Note: False of the code: if the window does not overlap the range of the kernel the weight is negative (no test for an empty range of E). Negation proved with a witness; the _partial theorem states what remains.
* Negation proved: `C91_sign_false`

### C92 A neutron that a kernel cannot scatter does not appear in the scattered beam — partial

* Modelled: `S` of five kernels and `KernelBase::scatter`
* Proof: negations for S(Q,E) and S(Q); the E(Q) kernel gives weight 0, the constant-(Q,E) kernel marks the neutron
* Note: False of the code: S(Q,E), focusing and S(Q) kernels return the neutron unchanged with full weight when the range is empty. Negation proved with a witness; the _partial theorem states what remains.
* Negation proved: `C92_sqe_false`, `C92_sq_false`

### C93 Expected weight of the E(Q) kernel — partial

* Modelled: the trial loop of `E_Q_Kernel::S` over a list of random numbers
* Proof: negation: half of the range possible, expected weight at least 1.25 times the right one, by a recursion for the iterated mean; partial: all of the range possible
* Note: False of the code: the weight is divided by the number of trials; the mean of 1/N is not the probability of success. Negation proved with a witness; the _partial theorem states what remains.
* Negation proved: `C93_reject_false`

### C94 Expected weight of scattering kernels — partial

* Modelled: the same kernels with the random numbers as integration variables
* Proof: change of variables, no integrability hypotheses
* Note: False of the code: neutrons below the energy range are counted with their full weight. Negation proved with a witness; the _partial theorem states what remains.
* Negation proved: `C94_empty_false`

### C95 Change of variables from time of flight to energy — partial

* Modelled: `DGSSXResKernel::S` after the choice of direction
* Proof: derivative of the energy by HasDerivAt
* Note: False of the code: 2 Ef / tof is used instead of 2 Ef / (tof - t) (DGSSXResKernel.cc:108). Negation proved with a witness; the _partial theorem states what remains.
* Negation proved: `C95_late_false`

### C96 Dispersion surface kernel: on the surface or untouched — partial

* Modelled: `E_vQ_Kernel::S` after root finding
* Proof: negation with witness; partial theorem for what remains
* Note: False of the code: the bail-out returns after the probability has been multiplied twice (E_vQ_Kernel.icc:203-225). Negation proved with a witness; the _partial theorem states what remains.
* Negation proved: `C96_bail_false`

### C97 Scattering coefficient in the weight belongs to the incident neutron — partial

* Modelled: `KernelBase::scatter`
* Proof: negation with the constant energy transfer kernel and a coefficient proportional to the energy
* Note: False of the code: `scattering_coefficient(ev)` is called after `S(ev)` changed the event (KernelBase.h:46-60). Negation proved with a witness; the _partial theorem states what remains.
* Negation proved: `C97_energy_false`

### C98 Rotating a vector about an axis — partial

* Modelled: `mcni::rotate`
* Proof: Rodrigues formula; length and projection for all arguments; rotation outside of the tolerance; negation with (1,0,10000) about z
* Note: False of the code: a vector whose projection on the axis differs from its length by less than 1e-7 relative (angle below 4.5e-4 rad) is not rotated (utils.icc). Negation proved with a witness; the _partial theorem states what remains.
* Negation proved: `C98_axis_false`

### C99 Line width does not change the intensity of a powder peak — partial

* Modelled: `scatter` with line widths
* Proof: negation: v = q/2 and relative width 1/2 lose half of the intensity; partial: width 0
* Note: False of the code: the shifted q may be out of reach, asin gives NaN and the neutron is lost; the weight of the others is not corrected. Negation proved with a witness; the _partial theorem states what remains.
* Negation proved: `C99_width_false`

### C100 Focusing of powder diffraction does not change the intensity — partial

* Modelled: `scatter` with focusing
* Proof: acceptance proved for horizontal flight; equality when every cone is covered; negation: 90 degrees and acceptance 60 degrees, all weight inside instead of a third
* Note: False of the code: the weight is not multiplied by the covered part of the cone. Negation proved with a witness; the _partial theorem states what remains.
* Negation proved: `C100_weight_false`

### C101 Multiple scattering inside a sample loses and duplicates nothing — proved

* Modelled: `_interactM1` and the three loops of `interactM_path1`
* Proof: a conserved quantity of one interaction, with any quantity of neutrons, of the kernel and of the number of random numbers used, is conserved by the cascade; induction over both loops

### C102 A packing factor means diluted material — proved

* Modelled: the same
* Proof: equality of results with the diluted material

### C103 Absorption curve is interpolated linearly — proved

* Modelled: constructor checks and `operator()` of InterpolateAbsorptionFromCurve.cc over the search
* Proof: specification through the equation of the straight line; the case of the last entry

### C104 The last plane of a grid — partial

* Modelled: the same classes
* Proof: negations with an axis of one step; partial: periodic data
* Note: False of the code: `r >= axis.n` fails (1D) or is moved to the first plane (3D), where periodic data is assumed. Negation proved with a witness; the _partial theorem states what remains.
* Negation proved: `C104_end1_false`, `C104_end3_false`

### C105 A dispersion given on a grid is defined everywhere and agrees with its data — proved

* Modelled: grid dispersion, change of coordinates and periodic dispersion as put together by the python bindings; indexes of branch and atom as in the code
* Proof: cells of the grid, C40 and C41; the layer of 1e-7 before the end of an axis goes to the first plane, which is within half a step modulo the lattice

### C106 Any valid density of states is accepted — partial

* Modelled: the same
* Proof: negations with 3 points and with a constant density of states; partial: at least 20 points that start with an exact parabola
* Note: False of the code: `_compute_sod` reads 20 elements of shorter arrays and ends the program by `throw;` if the start is not close to a parabola (LinearlyInterpolatedDOS.icc:119-148). Negation proved with a witness; the _partial theorem states what remains.
* Negation proved: `C106_short_false`, `C106_flat_false`

### C107 The density of states is normalised — partial

* Modelled: the same
* Proof: the integral is computed for all data; negation with a parabola cut off at its maximum; partial: first and last value zero
* Note: False of the code: normalised with the plain sum instead of the integral of the interpolated curve (LinearlyInterpolatedDOS.icc:89). Negation proved with a witness; the _partial theorem states what remains.
* Negation proved: `C107_debye_false`

### C108 Bose factor obeys detailed balance — proved

* Modelled: `phonon_bose_factor`, `BoseEinsteinDistribution`
* Proof: algebra with exponentials

### C109 Debye-Waller factor from a density of states — partial

* Modelled: `calc_DW_core` over any density of states, sampling points and skipped points as in the code
* Proof: trapezoidal sum, exactness for linear integrands, sign and monotony for densities of states from energy 0; negation with a gap of 10 meV
* Note: False of the code: for a density of states that starts above energy 0 the first point counts fully and the value extrapolated to energy 0 is added, which may be negative (DWFromDOS.icc:69-74). Negation proved with a witness; the _partial theorem states what remains.
* Negation proved: `C109_gap_false`

### C110 Incoherent elastic scattering is elastic and carries the Debye-Waller factor — partial

* Modelled: `IncoherentElastic::S` with the two random numbers as arguments
* Proof: vector algebra, fundamental theorem of calculus for the closed form; negation with (2e-5,0,1-1e-10); the expected total weight holds for all neutrons
* Note: False of the code: within 1e-4 of the z axis the axes are not orthogonal, so the speed changes (IncoherentElastic.cc:152-163). Negation proved with a witness; the _partial theorem states what remains.
* Negation proved: `C110_layer_false`

### C111 Incoherent one-phonon scattering samples the cross section — partial

* Modelled: `IncoherentInelastic::S`, `pick_Ef`, `choose_direction`; density of states and Debye-Waller function are arbitrary
* Proof: specification: average over the sphere of the integral over all positive energies of the cross section; change of variables, no integrability hypotheses; the cross section vanishes outside of the sampled range
* Note: Partial: for observables that vanish for energy transfers below one percent of the largest phonon energy, where the code uses the limit of the factor for small energies (C112); the recoil energy is that of the code (C113).

### C112 Phonon scattering is in detailed balance — partial

* Modelled: the same
* Proof: algebra with exponentials; negation with velocities 1 and 2 m/s; partial: larger energy transfers
* Note: False of the code: below one percent of the largest phonon energy gain and loss get the same thermal factor kT/w^2 (IncoherentInelastic.cc:262-267). Negation proved with a witness; the _partial theorem states what remains.
* Negation proved: `C112_small_false`

### C113 Recoil energy uses the mass of the atom in atomic mass units — partial

* Modelled: the same
* Proof: the ratio is computed from the constants; negation with a gain of half a meV
* Note: False of the code: `k2E(Q)/m_Mass` is the recoil energy for masses in units of the neutron mass, 1.00866 amu (IncoherentInelastic.cc:259, 270); 0.9 percent too small. Negation proved with a witness; the _partial theorem states what remains.
* Negation proved: `C113_mass_false`

### C114 Energy focusing only restricts the range of final energies — partial

* Modelled: `IncoherentInelastic_EnergyFocusing::S`
* Proof: window proved for all arguments; expectation for windows on the loss side; negation with a window at the energy gain
* Note: False of the code: `Ei-Efmax<0` rejects every window that reaches above the initial energy, so energy gain and a window around the elastic line give no neutrons (IncoherentInelastic_EnergyFocusing.cc:94). Negation proved with a witness; the _partial theorem states what remains.
* Negation proved: `C114_gain_false`

### C115 Several kinds of atoms — partial

* Modelled: `get_mass_and_xs`
* Proof: negation with masses 1 and 99; partial: equal masses
* Note: False of the code: sum of the cross sections over the mean mass (IncoherentInelastic.cc:121-129; the comment in line 257 gives the right sum). Negation proved with a witness; the _partial theorem states what remains.
* Negation proved: `C115_average_false`

### C116 Multiphonon spectra are in detailed balance — proved

* Modelled: `computeA1E` and the convolutions, `sqe`
* Proof: a symmetric window keeps the symmetry; induction over the order

### C117 The one-phonon spectrum is normalised — partial

* Modelled: `computeA1E` and `gamma0`
* Proof: the norm is computed for all data; negation with three points
* Note: False of the code: the value at energy zero is twice the one extrapolated linearly (multiphonon.py:208-212), and gamma0 counts the extrapolated value once. Negation proved with a witness; the _partial theorem states what remains.
* Negation proved: `C117_norm_false`

### C118 Multiphonon orders are weighted by a Poisson distribution — proved

* Modelled: `sqe` with `iterSQESet`, `DWExp`, `recoilE`; the axis of Q is an argument, `Emax` is not modelled
* Proof: series of the exponential; sums
* Note: If the first order is above the last one the result is None (C118_none).

### C119 Multiphonon spectra exist and are not negative — partial

* Modelled: the same
* Proof: negations with gaps at the first point; partial: second value at most 4(1+exp(-beta dE)) times the first
* Note: False of the code: linear extrapolation to energy zero gives a negative value for densities of states with a gap, in the spectrum and in gamma0, which can vanish. Negation proved with a witness; the _partial theorem states what remains.
* Negation proved: `C119_negative_false`, `C119_undefined_false`

### C120 Roots have the requested accuracy — partial

* Modelled: the same
* Proof: negation with a continuous function with four linear pieces; partial: the error is at most half a step, so steps of at most twice the accuracy are fine
* Note: False of the code: the loop ends as soon as two successive guesses are close, although the bracket may still be long (rootfinding.cc:218-221); the last guess but one is returned. Negation proved with a witness; the _partial theorem states what remains.
* Negation proved: `C120_accuracy_false`

### C121 No root is returned twice — partial

* Modelled: the same
* Proof: negation with the identity on [-1,1] in two steps; partial: no root at an inner grid point
* Note: False of the code: neighbouring sub-intervals both report a root at their common end (rootfinding.cc:177-187). Negation proved with a witness; the _partial theorem states what remains.
* Negation proved: `C121_twice_false`

### C122 Single crystal phonon scattering conserves energy and momentum — proved

* Modelled: `pick_a_final_state`, `pick_v_f`, `Omega_q_minus_deltaE::evaluate` with the root finder of C50; directions and random numbers are arguments, the dispersion is arbitrary
* Proof: C50 along the direction; the code checks no more than that the mismatch changes sign, so the phonon is met within one step of the search

### C123 Single crystal phonon scattering samples the one-phonon cross section — partial

* Modelled: the same with the structure factor and the final weight
* Proof: expectation over the index of branch and of solution
* Note: Partial: for directions in which every branch that is tried has a solution (C124, C125); branches that are not tried: C126; the scattered wave is that of the code (C127, C128).

### C124 Directions without a solution count as such — partial

* Modelled: the same
* Proof: negation: a direction without solution first gives the same result as none; a single direction is dealt with by C123
* Note: False of the code: the loop over directions draws again until a solution is found, and the weight does not account for that (CoherentInelastic_SingleXtal.cc:235-245). Negation proved with a witness; the _partial theorem states what remains.
* Negation proved: `C124_retry_false`

### C125 A neutron that cannot be scattered is not counted as scattered — partial

* Modelled: the same
* Proof: negation with a direction in which the mismatch has no root; partial: a solution along the first direction is used
* Note: False of the code: after 100 directions without a solution the neutron is returned unchanged with its full weight (CoherentInelastic_SingleXtal.cc:246-253). Negation proved with a witness; the _partial theorem states what remains.
* Negation proved: `C125_unscattered_false`

### C126 All phonon branches take part in the scattering — partial

* Modelled: the same
* Proof: negation with a single flat branch; partial: all branches start lower
* Note: False of the code: branches that start at 1.5 times the energy of the neutron or higher are left out though they can be destroyed, and if none remains the program takes a remainder modulo zero (CoherentInelastic_SingleXtal.cc:222-235). Negation proved with a witness; the _partial theorem states what remains.
* Negation proved: `C126_branches_false`

### C127 The structure factor of a phonon does not depend on conventions — proved

* Modelled: `sum_of_scattering_length` with complex numbers of Mathlib
* Proof: a common factor of modulus one

### C128 The amplitudes of the atoms enter the structure factor — partial

* Modelled: the same
* Proof: negation: amplitudes (5,5) and (7,1) give the same wave; an atom at rest gives not a number; partial: all vectors of length 1
* Note: False of the code: `Q.e` is divided by the length of the polarization vector of each atom (scattering_length.icc:42-43). Negation proved with a witness; the _partial theorem states what remains.
* Negation proved: `C128_amplitude_false`

### C129 The sign of scattering lengths is kept — partial

* Modelled: `coh_b` in the binding
* Proof: negation: two atoms with opposite scattering lengths; partial: positive scattering lengths
* Note: False of the code: `sqrt(xs*100/4/pi)` is always positive (BoostPythonBinding.py:98-105). Negation proved with a witness; the _partial theorem states what remains.
* Negation proved: `C129_sign_false`

### C130 Powder phonon scattering conserves energy and momentum — partial

* Modelled: `S`, `pick_a_valid_Q_vector`, `pick_Ef`, `pick_v_f`; the list of random momentum transfers is an argument
* Proof: negation with a dispersion that rises linearly to a plateau; partial: all phonon energies met are large enough
* Note: False of the code: `continue` in a do-while loop goes to the test, with the energy of the round before or not yet set (CoherentInelastic_PolyXtal.cc:170-186). Negation proved with a witness; the _partial theorem states what remains.
* Negation proved: `C130_stale_false`

### C131 Powder phonon scattering counts the possible final energies — partial

* Modelled: the same with the final weight
* Proof: the weight is computed for all cases; negation with a flat branch at 5/4 of the energy of the neutron; partial: phonon energies below that of the neutron
* Note: False of the code: `if (E_i > omega)` uses the signed energy transfer E_i - E_f, so it is always true (CoherentInelastic_PolyXtal.cc:324-348). Negation proved with a witness; the _partial theorem states what remains.
* Negation proved: `C131_choices_false`

### C132 The weight of powder phonon scattering does not depend on the sampling range — partial

* Modelled: `calc_AccessibleReciVol`
* Proof: negation with 1 and 2 times the energy of the neutron; partial: ratios of weights do not depend on it
* Note: False of the code: the volume of momentum transfers that can be accepted is replaced by a fitted formula that contains the largest phonon energy (CoherentInelastic_PolyXtal.cc:213-225). Negation proved with a witness; the _partial theorem states what remains.
* Negation proved: `C132_volume_false`

### C133 Single-crystal Bragg scattering is elastic — proved

* Modelled: the same
* Proof: orthonormal frames; the case distinction of `normal_vec` gives a unit vector across in every case

### C134 Bragg scattering samples the mosaic distribution on the Ewald sphere — proved

* Modelled: the same
* Proof: completing the square; the triangular factor of the covariance is verified

### C135 The reflectivity is the density of lattice vectors on the Ewald sphere — proved

* Modelled: the same
* Proof: Gaussian integrals of Mathlib, iterated, no integrability hypotheses

### C136 No reflection near the Ewald sphere is lost — partial

* Modelled: the same with the list made by the binding (without reflections of no strength, sorted)
* Proof: soundness for all crystals; completeness for mosaic spreads below the spread of spacings by the triangle inequality; negations with a cubic crystal and for all crystals with a spread above 1/5
* Note: False of the code: the loop stops at `tau > 2k/(1-5 delta)`, which knows only the spread of lattice spacings, though the cutoff of a reflection is made with the larger of it and the mosaic spread; for spreads above 1/5 the limit is negative (SingleCrystalDiffractionKernel.cc:166-190). Negation proved with a witness; the _partial theorem states what remains.
* Negation proved: `C136_mosaic_false`, `C136_spread_false`

### C137 Bragg scattering does not depend on earlier neutrons — proved

* Modelled: calls of the kernel with its cache
* Proof: invariant: the cache belongs to its velocity

### C138 Normally distributed random numbers — proved

* Modelled: the polar method with its rejection loop over a list of uniform random numbers
* Proof: polar coordinates, change of variables of the radius, Fubini; recursion over the rounds

### C139 Lorentz distributed random numbers — proved

* Modelled: the tangent of a uniform angle
* Proof: change of variables

### C140 Random directions towards a target are uniformly distributed over the cone — partial

* Modelled: `choose_direction` with `rotate`
* Proof: angles, lengths and the solid angle are right for all cones; expectation over the cap for observables that are 0 near the axis; negation with a target at distance 1 and of radius 1e-4
* Note: False of the code: `rotate` leaves a vector as it is that is nearly along the axis (1 - cos < 1e-7), so the azimuth is not sampled: for a cone of less than 4.5e-4 rad all directions lie in one half plane (geometry.cc:58-59, utils.icc:25-28). Negation proved with a witness; the _partial theorem states what remains.
* Negation proved: `C140_narrow_false`

### C141 Scattering by a broadened dispersion curve follows the curve — proved

* Modelled: both kernels, which differ only in the distribution; the deviations are arguments
* Proof: induction over the rounds; the distributions are those of C138 and C139

### C142 The intensity of a broadened dispersion curve is right — partial

* Modelled: the same
* Proof: the expectation is computed for all curves and both distributions; ratios of observables are right; negation for all curves with positive width, with a witness
* Note: False of the code: failed rounds are repeated and the weight does not account for it (Broadened_E_Q_Kernel.icc:154-183), so the intensity is divided by the acceptance. Negation proved with a witness; the _partial theorem states what remains.
* Negation proved: `C142_weight_false`, `C142_flat_false`

### C143 A broadened dispersion curve passes no neutrons unscattered — partial

* Modelled: the same
* Proof: partial: a possible round among the first 99 is used; negations with a flat curve
* Note: False of the code: neutrons with less energy than `min(E-3W)` are returned with their full weight (Broadened_E_Q_Kernel.icc:142-146), and so are those for which the first 99 rounds fail, even if the last one succeeds (lines 180-190). Negation proved with a witness; the _partial theorem states what remains.
* Negation proved: `C143_slow_false`, `C143_last_false`

### C144 Small angle scattering by spheres is elastic — partial

* Modelled: `S` with `choose_direction` of C140; maximal angles of 90 and 180 degrees are left out, where the tangent of the model is not that of the machine
* Proof: C140; negation with the random number 1
* Note: False of the code: in exactly forward direction, which `rand()/RAND_MAX` can give, the form factor is 0/0 (SpheresKernel.cc:91). Negation proved with a witness; the _partial theorem states what remains.
* Negation proved: `C144_forward_false`

### C145 Small angle scattering by spheres has the intensity of the form factor — partial

* Modelled: the same
* Proof: the expectation is computed for all observables; it is the right one divided by 4 pi
* Note: False of the code: the solid angle is divided by 4 pi although the factor in line 92 is already the cross section per steradian (SpheresKernel.cc:86, 92). Negation proved with a witness; the _partial theorem states what remains.
* Negation proved: `C145_weight_false`

### C146 The scattering coefficient of spheres is their total cross section — partial

* Modelled: `scattering_coefficient`
* Proof: closed form with spherical Bessel functions by the fundamental theorem of calculus; the coefficient is too large for all spheres and neutrons; partial: bound of the relative error
* Note: False of the code: 3/2 phi drho^2 lambda^2 R is the limit for large spheres (SpheresKernel.cc:48-59). Negation proved with a witness; the _partial theorem states what remains.
* Negation proved: `C146_coefficient_false`

### C147 A listed component can be obtained — partial

* Modelled: `_getStaticComponentList`, `_getStaticComponent`, `getFactory`
* Proof: negation with two repositories; partial: modules of one name agree on the category; requests are stable
* Note: False of the code: the loop over repositories does not look at the category, so a module of the same name in a later repository hides the component, and the request raises RuntimeError (RegistryBase.py:108-120). Negation proved with a witness; the _partial theorem states what remains.
* Negation proved: `C147_shadow_false`

### C148 Histograms S(Q,E) round trip through idf files — partial

* Modelled: `writeSQE` and `readSQE` on top of C43
* Proof: round trip for histograms with axes (Q, energy); negation with a 2x2 histogram
* Note: False of the code: the axes are taken by name but the array as it is stored, so a histogram with axes (energy, Q) is read with its data exchanged; errors are not stored (idf/__init__.py:43-61). Negation proved with a witness; the _partial theorem states what remains.
* Negation proved: `C148_order_false`

### C149 Each reflection is counted once — partial

* Modelled: `iter_peaks` with `multiplicity`, `equivalent_hkls`, `F`, `q`, `d`; comparison of indexes is exact
* Proof: orbits of the group partition the box of indexes; partial: groups of rotations and reflections of the cube with the three mirror planes; negation with a monoclinic lattice, for any number of indexes
* Note: False of the code: only indexes that are not negative are tried for powders (calcpeaks.py:14). Negation proved with a witness; the _partial theorem states what remains.
* Negation proved: `C149_powder_false`

### C150 Reflections that are counted together are equivalent — partial

* Modelled: the same
* Proof: invariance of lengths and structure factors under transposed matrices; partial: groups closed under transposition; negation with a hexagonal crystal, whose line (1 1 0) is missing
* Note: False of the code: indexes are multiplied by the matrices that act on positions instead of by the transposed ones (calcpeaks.py:95). Negation proved with a witness; the _partial theorem states what remains.
* Negation proved: `C150_equivalent_false`, `C150_missing_false`

### C151 The smallest spacing leaves out exactly the reflections with a smaller spacing — partial

* Modelled: the same
* Proof: partial: orthogonal basis vectors; negation with a hexagonal crystal
* Note: False of the code: the loops are left at the first (h 0 0) or (0 k 0) with a small spacing, though (h k 0) can have a larger one (calcpeaks.py:23-29). Negation proved with a witness; the _partial theorem states what remains.
* Negation proved: `C151_spacing_false`

### C152 Neutrons survive the way through an MCPL file — partial

* Modelled: `write_mcpl`, `mcpl2mcv` and the commands; the MCPL library is a list of particles read in blocks
* Proof: partial: non-empty list of moving neutrons; spin directions always, spin numbers if they are in the range of spherical coordinates
* Note: False of the code: a neutron at rest gets the direction 0/0 (to_mcpl.cc:69-71); a file without neutrons makes `np.concatenate` fail (mcpl.py:41). Negation proved with a witness; the _partial theorem states what remains.
* Negation proved: `C152_round_trip_false`

### C153 Import from and export to MCPL keep the intensity — partial

* Modelled: the same
* Proof: the import is proved; export: the exact factor, and the negation with two neutrons
* Note: False of the code: the export writes the weights unchanged, while the import multiplies by the number of neutrons by default (neutronstorage.py:105, mcpl.py:44-46). Negation proved with a witness; the _partial theorem states what remains.
* Negation proved: `C153_export_false`

### C154 Import from MCPL keeps the polarisation — partial

* Modelled: the same
* Proof: partial: unit vectors; negation
* Note: False of the code: a polarisation of length 0 becomes spin numbers 0, 0 (mcpl.py:34-36), which are exported as polarisation along y. Negation proved with a witness; the _partial theorem states what remains.
* Negation proved: `C154_polarisation_false`

### C155 Conversion between Vitess and mcvine describes the same neutron — partial

* Modelled: the C++ converters and the Python converter
* Proof: the Python converter is proved for unit direction vectors; the C++ converters undo each other; negation with a concrete neutron
* Note: False of the code: the C++ converters copy positions, velocities and times without change of units and axes (mcvine2vitess.h:30-36); the directory is not built (legacycomponents/CMakeLists.txt:3). Negation proved with a witness; the _partial theorem states what remains.
* Negation proved: `C155_cpp_false`

### C156 Commands that take a range of neutrons from a file — partial

* Modelled: `extract` from bytes to bytes on top of the file model of C04, the range of `print`
* Proof: the range is proved on the bytes of both files
* Note: False of the code: the default `None` of `--end` is compared or subtracted (neutronstorage.py:48,89): TypeError in every call without it. Negation proved with a witness; the _partial theorem states what remains.
* Negation proved: `C156_default_false`

### C157 The radial collimator stops exactly the neutrons that hit a blade — partial

* Modelled: `RadialCollimator`: crossing of the cylinders, angles, numbering of channels for even spacing and for a list
* Proof: partial: all blades within half a turn, starting point inside, edges of the blades not touched; both directions, from the crossing of rays by a segment; negation with a concrete collimator
* Note: False of the code: `arctan2` gives angles up to half a turn only, so parts of a collimator beyond are closed (RadialCollimator.py:28-36). Negation proved with a witness; the _partial theorem states what remains.
* Negation proved: `C157_collimator_false`

### C158 The cone source has the energy and momentum transfer asked for — proved

* Modelled: `NeutronsOnCone_FixedQE.__init__` and `process`, errors as values
* Proof: law of cosines; existence for every closing triangle

### C159 The monochromatic source emits what was asked for — partial

* Modelled: the three variants of `process`
* Proof: partial: samples that are not negative, moving neutron; negation for every spread
* Note: False of the code: negative samples of the normal distribution give velocities that are not numbers (MonochromaticSource.py:71-77). Negation proved with a witness; the _partial theorem states what remains.
* Negation proved: `C159_mono_false`

### C160 Propagation of McStas components brings the neutron forward to the plane — partial

* Modelled: `prop_dt`, `prop_z0`, `prop_x0` with `plane_intersect_Gfast` and `ABSORB`
* Proof: partial: exact arrival for neutrons ahead of the plane without gravity, first arrival for survivors with gravity; negations with concrete neutrons, the last one for every neutron
* Note: False of the code: without gravity a neutron beyond the plane flies back in time (propagators.h:75-85 has no test of the sign); with gravity `plane_intersect_Gfast` takes the root nearest to the straight flight (geometry.cc:574-615), so a neutron that falls back is absorbed, and one that is on the plane already is absorbed always. Negation proved with a witness; the _partial theorem states what remains.
* Negation proved: `C160_back_false`, `C160_fall_false`, `C160_again_false`

### C161 Rotations of the McStas library are rotations — partial

* Modelled: `rotate`, `rot_set_rotation`, `rot_mul`, `rot_transpose`, `rot_apply`, the change of coordinates
* Proof: algebra over the reals; the matrix is compared with the one of the instrument model (C16)
* Note: False of the code: an axis of length 0 gives cos(phi) times the vector without notice (geometry.cc:269-304). Negation proved with a witness; the _partial theorem states what remains.
* Negation proved: `C161_axis_false`

### C162 Directions towards a disk are uniform in the cone of the disk — proved

* Modelled: `randvec_target_circle` with `rotate` and `normal_vec`
* Proof: integral over the cap in coordinates around the axis, as for C140

### C163 Directions towards an angular window are uniform in the window — partial

* Modelled: `randvec_target_rect_angular`
* Proof: partial: exact integral of the distribution in angles; negation with a second moment; undefined behaviour as result
* Note: False of the code: angles are drawn uniformly, so the directions are not uniform in the window though the solid angle returned is that of uniform directions; without window size the call is made with arguments that are not set. Negation proved with a witness; the _partial theorem states what remains.
* Negation proved: `C163_uniform_false`, `C163_window_false`

### C164 Directions towards a rectangle have the right weight — partial

* Modelled: `randvec_target_rect`
* Proof: change of variables to the rectangle; negation for every such target
* Note: False of the code: for a target straight above or below the horizontal vector of the rectangle is 0/0. Negation proved with a witness; the _partial theorem states what remains.
* Negation proved: `C164_vertical_false`

### C165 Intersections with sphere, cylinder and box are the ends of the flight through the body — partial

* Modelled: `box_intersect`, `cylinder_intersect`, `sphere_intersect`
* Proof: quadratic equations and clipping of intervals; partial: no flight parallel to the axis, no flight through an edge; negations with witnesses
* Note: False of the code: a flight parallel to the axis of the cylinder divides by 0; a flight through edges of a box hits two faces at once, more than two faces or none are counted and no intersection is found. Negation proved with a witness; the _partial theorem states what remains.
* Negation proved: `C165_axis_false`, `C165_edge_false`

### C166 normal_vec is a unit vector perpendicular to its argument — proved

* Modelled: `normal_vec`
* Proof: case distinction

### C167 randnorm gives independent normally distributed numbers — partial

* Modelled: `randnorm` with its static variables as state, the rejection loop over a list of random numbers
* Proof: polar coordinates in the plane for every observable of the pair; independence by Fubini; negation with two streams
* Note: False of the code: the second number of a pair is kept in static variables and used after a new seed. Negation proved with a witness; the _partial theorem states what remains.
* Negation proved: `C167_seed_false`

### C168 McStas monitors with one axis count the neutrons through their area in the right channel — partial

* Modelled: `Monitor`, `Monitor_4PI`, `L_monitor`, `E_monitor`, `TOF2E_monitor`, `PSDlin_monitor`, `Hdiv_monitor` over histograms as functions of the channel, with an index out of range as undefined behaviour; text output, events of `MCDISPLAY` and the collection over nodes are not modelled
* Proof: a lemma on runs of any monitor that adds at an index; bins by floor; partial: neutrons that come to the plane; mean and spread of the energy by Cauchy-Schwarz; negations with concrete neutrons
* Note: False of the code: `ABSORB` inside of `PROP_Z0` only leaves the propagator (tracing_macros.h:33), so a neutron that flies parallel to the monitor is counted with weight -1; a neutron that flies away from the monitor flies back in time and is counted. Negation proved with a witness; the _partial theorem states what remains.
* Negation proved: `C168_parallel_false`, `C168_away_false`

### C169 McStas monitors with two axes count the neutrons through their area in the right pixel — partial

* Modelled: `PSD_monitor`, `EPSD_monitor`, `DivPos_monitor`, `Divergence_monitor`, `TOFLambda_monitor`, `DivLambda_monitor`, as for C168
* Proof: flat indexes of pixels are one to one; partial: neutrons that come to the plane
* Note: False of the code: as for C168, the pixel gets the weight -1. Negation proved with a witness; the _partial theorem states what remains.
* Negation proved: `C169_parallel_false`

### C170 McStas time of flight monitors count each neutron in the channel of its time — partial

* Modelled: `TOF_monitor`, `TOF_monitor2`, `TOFlog_monitor`
* Proof: exact content of each channel; powers of ten by monotony of the logarithm; negations with concrete neutrons
* Note: False of the code: times out of range are counted in the first and the last channel; with `dt` instead of `tmax` the channels start at 0 while the axis of the output starts at `tmin` (TOF_monitor.comp); the logarithm of a time that is not positive is converted to an index. Negation proved with a witness; the _partial theorem states what remains.
* Negation proved: `C170_axis_false`, `C170_range_false`, `C170_log_false`

### C171 McStas cylindrical monitors count neutrons where they leave the cylinder — partial

* Modelled: `PSDcyl_monitor`, `TOF_cylPSD_monitor` with `cylinder_intersect` of C165
* Proof: exit point from C165; partial: the quarter of the surface with indexes in range, angles other than 180 degrees; negations with concrete neutrons
* Note: False of the code: `PSDcyl_monitor` has no offset in its indexes: half of the circle is counted outside of the array and the rest is moved by half of the axes (PSDcyl_monitor.comp:107-109); `TOF_cylPSD_monitor` counts the angle of 180 degrees in the next time channel. Negation proved with a witness; the _partial theorem states what remains.
* Negation proved: `C171_seam_false`, `C171_shift_false`, `C171_half_false`

### C172 The McStas monitor around all directions counts neutrons by longitude and latitude and leaves them unchanged — partial

* Modelled: `PSD_monitor_4PI` with `sphere_intersect`
* Proof: exact content of each pixel; negation with three rows
* Note: False of the code: the row has an offset of one half more than it should (PSD_monitor_4PI.comp:134), so rows are moved by half their height and the uppermost row is wider. Negation proved with a witness; the _partial theorem states what remains.
* Negation proved: `C172_row_false`

### C173 The McStas I(Q,E) monitor counts neutrons by momentum and energy transfer within its angles — partial

* Modelled: `IQE_monitor` with `angle_out_of_plane`
* Proof: exact content of each pixel for ranges that are the same above and below; negation with a neutron below the plane
* Note: False of the code: the angle out of plane has no sign (IQE_monitor.comp:84-89), so a range above the plane also takes the neutrons below. Negation proved with a witness; the _partial theorem states what remains.
* Negation proved: `C173_below_false`

### C174 A McStas slit lets exactly the neutrons through its opening pass — partial

* Modelled: `Slit` with `PROP_Z0` of C160
* Proof: partial: neutrons that come to the slit; negation with a concrete neutron
* Note: False of the code: a neutron that flies away from the slit is moved back in time and passes (Slit.comp:60). Negation proved with a witness; the _partial theorem states what remains.
* Negation proved: `C174_away_false`

### C175 A McStas beam stop absorbs exactly the neutrons that hit it and does not change the others — partial

* Modelled: `Beamstop`
* Proof: partial: neutrons that come to the plane; negation with two neutrons
* Note: False of the code: neutrons parallel to the stop and neutrons that have left it behind are absorbed (Beamstop.comp:71-78). Negation proved with a witness; the _partial theorem states what remains.
* Negation proved: `C175_parallel_false`

### C176 The McStas linear collimator transmits the part of the neutrons that miss its blades — partial

* Modelled: `Collimator_linear`
* Proof: the part of free paths is an integral over the position of the blades; partial: the exact power of the transmission; negation with a neutron along the axis
* Note: False of the code: with blades in both directions the transmission is multiplied twice (Collimator_linear.comp:81, 89). Negation proved with a witness; the _partial theorem states what remains.
* Negation proved: `C176_twice_false`

### C177 McStas velocity selectors transmit the part of the rotor phases for which a neutron hits no blade — proved

* Modelled: `V_selector` (without gravity), `Selector`; division by 0 as failure
* Proof: integral over the phase of the rotor; for `Selector` the integral over its random number

### C178 A McStas disk chopper is open exactly when one of its slits is at the place of the neutron — partial

* Modelled: `DiskChopper`, `INITIALIZE` with its errors and `TRACE`; the jitter is an argument
* Proof: fmod and equally spaced slits; partial: no change of height, no delay with negative omega or in the first chopper; negations with concrete choppers
* Note: False of the code: the height is computed before the neutron is moved to the chopper (DiskChopper.comp:156-157); a delay changes its sign for negative omega (line 129); the first chopper subtracts the delay instead of adding it (line 171). Negation proved with a witness; the _partial theorem states what remains.
* Negation proved: `C178_height_false`, `C178_delay_false`, `C178_first_false`

### C179 The HYSPEC chopper is open exactly when one of its slits is at the place of the neutron — partial

* Modelled: `HYSPEC_Chopper_v`, variables that are not set as undefined behaviour
* Proof: the four quadrants give the argument of a complex number; negations with concrete neutrons
* Note: False of the code: the number of slits is not used, only one opening in all time is (HYSPEC_Chopper_v.comp:76); on the diagonals the angle is not set (lines 67-72). Negation proved with a witness; the _partial theorem states what remains.
* Negation proved: `C179_slits_false`, `C179_diagonal_false`

### C180 A neutron in a McStas guide flies from mirror to mirror and leaves at the end — partial

* Modelled: `Guide` without gravity; the four walls as linear functions; the loop with a limit of its turns; a table of reflectivities as an arbitrary function
* Proof: the nearest wall by induction over the list; partial: if the trace ends, its result is the end of a chain of flights and reflections; for straight guides it ends, the number of reflections that are left decreases by one; negation with a concrete neutron for every number of turns
* Note: False of the code: a neutron that moves across the guide is not absorbed by `PROP_Z0` (whose `ABSORB` only leaves the propagator) and is reflected for ever (Guide.comp:120, 127-215). Negation proved with a witness; the _partial theorem states what remains.
* Negation proved: `C180_ends_false`

### C181 The weight of a neutron in a McStas guide stays positive and does not grow — partial

* Modelled: the same
* Proof: logistic form of the edge; partial: coatings whose linear decrease does not reach 0 before the cut-off; negation with a concrete neutron that leaves the guide with a negative weight
* Note: False of the code: above Qc + 1/alpha the factor 1 - alpha (q - Qc) is negative and is not cut off as long as q < m Qc + 10 W, e.g. for m = 8 and the defaults (Guide.comp:204-206). Negation proved with a witness; the _partial theorem states what remains.
* Negation proved: `C181_false`

### C182 A McStas mirror reflects the neutrons that meet it with its reflectivity — proved

* Modelled: `Mirror`
* Proof: direct; the mean over the random number is an integral of a step function

### C183 The flat McStas monochromator scatters elastically by a multiple of its scattering vector — partial

* Modelled: `Monochromator_flat`; the loop for the width with a limit of its turns; the weight (a quadrature with 15 nodes) is modelled, nothing is proved about it
* Proof: rounding to the nearest order; vectors on the cone of Debye and Scherrer; partial: neutrons not along the normal for which the trace ends; negations with concrete neutrons, the first for every number of turns
* Note: False of the code: the loop that reduces the width does not end if the neutron is more than sqrt(37.5) mosaic widths away from the angle of Bragg, as the width does not matter then (Monochromator_flat.comp:196-207); for neutrons along the normal the probability is 0/0 and they are never reflected (lines 161-165). Negation proved with a witness; the _partial theorem states what remains.
* Negation proved: `C183_ends_false`, `C183_normal_false`

### C184 Table_Value interpolates linearly between the rows of a table — partial

* Modelled: `Table_Index`, `Table_Stat`, `Table_Value`, `Table_Interp1d`; the data are a function of the index
* Proof: minimum and maximum by induction over the rows, the search by induction over its turns; partial: unequal steps, before the last but one row or outside of the table; negations with concrete tables
* Note: False of the code: for tables with constant steps the index is computed with the number of rows instead of the number of intervals, and the values are taken from one row before the places: the value in the node 1 of (0,0), (1,10), (2,20) is 0 (read_table-lib.cc:673-680); for other tables the search ends before the last interval and the places of the interval before are used: (0,0), (1,10), (3,30) gives 50 at 2 (lines 664-671). Negation proved with a witness; the _partial theorem states what remains.
* Negation proved: `C184_step_false`, `C184_last_false`

### C185 Table_Rebin keeps the function of a table and makes its steps equal — partial

* Modelled: `Table_Rebin` after `Table_Stat`
* Proof: the smallest step by induction; partial: places of the rows, values before the last but one row; negations with concrete tables
* Note: False of the code: the last row is never reached, as only ceil(range / step) rows are made (read_table-lib.cc:563, 566-569); tables in descending order count as not monotonic the second time, and then as tables with constant steps (lines 870-887), and are returned unchanged. Negation proved with a witness; the _partial theorem states what remains.
* Negation proved: `C185_last_false`, `C185_decreasing_false`

### C186 The units of McStas components agree with those of the other components — partial

* Modelled: `phys_constants.h` and the conversions of `units_conversion.h`
* Proof: bounds of numbers; partial: relative differences 1e-7 (back and forth), 1e-5 (energies), 4e-4 (wave vectors)
* Note: False of the code: `K2V` is larger than hbar / m by 1.5e-4: energies of neutrons made for a wave vector or wave length are too large by 3e-4 (phys_constants.h:25). Negation proved with a witness; the _partial theorem states what remains.
* Negation proved: `C186_false`

### C187 Source_simple emits neutrons from its area through its target with the right spectrum and weight — partial

* Modelled: `Source_simple`; targets with positive size (with `randvec_target_rect` of the model of McStas)
* Proof: substitution in integrals for disk, rectangle and target; partial as stated; negations with concrete sources
* Note: False of the code: the solid angle is that seen from the center of the source (Source_simple.comp:107-114); gaussian wave lengths lack their mean `Lambda0` (line 127); as `E0` has a default, the interval of wave lengths is not tested and neutrons may fly backwards (lines 80-82). Negation proved with a witness; the _partial theorem states what remains.
* Negation proved: `C187_weight_false`, `C187_gauss_false`, `C187_spectrum_false`

### C188 Source_div emits neutrons with the given divergences and spectrum — partial

* Modelled: `Source_div`
* Proof: direct; the full width at half maximum from the logarithm; partial as stated; negations with concrete sources
* Note: False of the code: parameters with |dE| >= E0 and dLambda > Lambda0 = 0 are accepted and end the program at the first neutron (Source_div.comp:76-78, 104-107); angles above 90 degrees are folded to the forward direction (lines 118-124). Negation proved with a witness; the _partial theorem states what remains.
* Negation proved: `C188_exit_false`, `C188_angle_false`

### C189 Moderator emits neutrons with exponentially distributed times — partial

* Modelled: `Moderator`; accepted parameters with positive energies and size of the target
* Proof: substitution; the probability of late times is an integral of a step function
* Note: The weight is that of the solid angle seen from the center of the source; negative decay times are accepted (hypothesis).

### C190 Source_Maxwell_3 emits the sum of three Maxwell spectra — partial

* Modelled: `Source_Maxwell_3`
* Proof: the primitive (1 + a / l^2) exp (-a / l^2) and its limits; partial as stated; negation with a concrete source
* Note: False of the code: an interval with l_low > l_high is accepted and gives negative weights (Source_Maxwell_3.comp:76-81); the solid angle is that seen from the center (lines 99-100, 119). Negation proved with a witness; the _partial theorem states what remains.
* Negation proved: `C190_order_false`

### C191 Random numbers of the McStas components are those of MT19937 — proved

* Modelled: `mt_srandom`, `mt_random` with its static variables as state, words of 64 bits; the array is a function of the index (`init_by_array`, which nothing calls, is not modelled)
* Proof: invariant: the array holds 624 words of the sequence in succession; induction over the turns of the three loops in place

### C192 rand01, randpm1 and randminmax stay in their half open ranges — proved

* Modelled: the macros on rational numbers
* Proof: words of 32 bits by C191; xor with a shift of itself is injective

### C193 The random stream is periodic without transient and never dies — proved

* Modelled: the same
* Proof: the recurrence can be run backwards (the matrix and the tempering are injective), pigeonhole; the zero sequence run backwards contradicts the seed. The length 2^19937 - 1 of the period is not proved.

### C194 Different seeds, nodes and runs have different random numbers — partial

* Modelled: `rng_seed.usetimer_p`, `seeder.feed`, the seed in `wrap_random_numbers.cc`
* Proof: both directions by C191 and C193; partial: nodes that read the same time; negation with two nodes
* Note: False of the code: the seed of a node is the time in microseconds modulo 65536 plus its rank (rng_seed.py:19-28): a node that starts one microsecond after the node with the next rank has the same random numbers; 65537 runs cannot have different ones. Negation proved with a witness; the _partial theorem states what remains.
* Negation proved: `C194_nodes_false`

### C195 The old generator is seeded with the multiplicative congruential sequence — partial

* Modelled: the first loop of `mc_srandom` (the warm-up behind it calls the macro `random`, which is the other generator by default)
* Proof: the identity of Schrage; negation with this seed
* Note: False of the code: the seed 2^31 - 1 gives zeros in the whole state, which the replacement of the seed 0 is to avoid (random_numbers.cc:110-122). Negation proved with a witness; the _partial theorem states what remains.
* Negation proved: `C195_false`

### C196 V_sample: single scattering with the true way in the material — partial

* Modelled: `V_sample`, `INITIALIZE` and `TRACE`, without gravity; values that are not numbers as failure
* Proof: the lengths are Lebesgue measures of times in the material, from C165; partial: no flights through edges or along the axis, not on the surface of the hole; negation with a concrete neutron
* Note: False of the code: a neutron that has left the sample behind and will never meet it is absorbed (V_sample.comp:202). Negation proved with a witness; the _partial theorem states what remains.
* Negation proved: `C196_behind_false`

### C197 V_sample: scattered and transmitted neutrons together carry the weight of the beam — partial

* Modelled: the same
* Proof: integral of the exponential; partial: whole sphere, elastic, no absorption; negation with frac = 2
* Note: False of the code: `frac` above 1 is accepted and divides the weight of all neutrons (V_sample.comp:217, 287). Negation proved with a witness; the _partial theorem states what remains.
* Negation proved: `C197_above_false`

### C198 V_sample scatters to the target — partial

* Modelled: the same
* Proof: by C162 and C164; partial: target given as position, disk or rectangle in metres
* Note: False of the code: the code for `target_index` is commented out (V_sample.comp:141-150): with any index the neutrons are scattered around the z axis. Negation proved with a witness; the _partial theorem states what remains.
* Negation proved: `C198_index_false`

### C199 V_sample: quasi-elastic energy transfers have a Lorentzian distribution — proved

* Modelled: the formula of the energy transfer
* Proof: arctan is the inverse of tan; the mean of a step function

### C200 Sans_spheres: the form factor is the Fourier transform of a sphere — partial

* Modelled: the formula of the form factor
* Proof: fundamental theorem of calculus; negation with a neutron along the axis
* Note: False of the code: for a neutron that is not deflected the formula is 0/0 (Sans_spheres.comp:113). Negation proved with a witness; the _partial theorem states what remains.
* Negation proved: `C200_forward_false`

### C201 Sans_spheres: place, direction and weight of scattered neutrons — partial

* Modelled: `Sans_spheres`, `INITIALIZE` and `TRACE`, without gravity
* Proof: as for C196; partial: no flight through an edge, deflected neutrons; the constant factor 1/(4 pi) of the weight is in the theorem (documented: no absolute intensities)
* Note: False of the code: the cross section, documented in 1/m, is multiplied by 100 (Sans_spheres.comp:74): absorption is 100 times too strong. Negation proved with a witness; the _partial theorem states what remains.
* Negation proved: `C201_absorption_false`

### C202 T0 and Fermi choppers: the path in the turning frame is the circle through three places of the flight — proved

* Modelled: `Vertical_T0` and `Fermi_chop2`: the rotation of McStas, `calccenter`, the points
* Proof: polynomial identities; the denominator is twice the area of the triangle

### C203 The angles of a chopper path describe the part of the circle that is flown — partial

* Modelled: `acos0_2pi`, `neutxypos`
* Proof: cosine and sine of the inverse cosine; negation with two points
* Note: False of the code: the angles are in [0, 2 pi] without unwrapping (Vertical_T0.comp:61-67, 142): a path across the angle 0 is replaced by the other part of the circle. Negation proved with a witness; the _partial theorem states what remains.
* Negation proved: `C203_wrap_false`

### C204 The path is tested from the entrance plane to the exit plane of the slot — partial

* Modelled: the two ends of the path
* Proof: by C203; negation for every circle that crosses the exit plane
* Note: False of the code: the angle of the exit plane is computed with splen/2 instead of splen (Vertical_T0.comp:149, Fermi_chop2.comp:189): the last quarter of the slot is not tested. Negation proved with a witness; the _partial theorem states what remains.
* Negation proved: `C204_exit_false`

### C205 The path is tested at points of the path — partial

* Modelled: the nested loops with the array `phivec` as function of the index
* Proof: invariant of the loop: after turn m the points are the multiples of 1/2^m; negation with a neutron that stays in the slot
* Note: False of the code: the inner loop runs one step too far in each turn (Vertical_T0.comp:164-167): 6 points behind the end of the path are tested. Negation proved with a witness; the _partial theorem states what remains.
* Negation proved: `C205_beyond_false`

### C206 The loop of the T0 chopper ends — partial

* Modelled: the outer loop with a number of turns
* Proof: by C205; negation for every chopper with nu = 0
* Note: False of the code: for a path that is straight in the turning frame, e.g. a chopper at rest, no angle is a number and the loop never ends (Vertical_T0.comp:157-183). Negation proved with a witness; the _partial theorem states what remains.
* Negation proved: `C206_parked_false`

### C207 The walls of the T0 slot are planes — partial

* Modelled: `t0checkabsorb`
* Proof: direct; negation with two paths through one point
* Note: False of the code: the slope of the wall is (w2 - w1)/(nrad/2) with the radius of the path instead of the length of the slot (Vertical_T0.comp:91): whether a point is in the slot depends on the path. Negation proved with a witness; the _partial theorem states what remains.
* Negation proved: `C207_taper_false`

### C208 The blades of the Fermi chopper absorb — partial

* Modelled: `checkabsorb`, `blades`
* Proof: properties of the ceiling; negation for every point inside of a blade
* Note: False of the code: the thickness of the blades is not tested (Fermi_chop2.comp:109-121): the upper limit of a channel is compared with itself rounded up, which never fails, so that blades are transparent. Negation proved with a witness; the _partial theorem states what remains.
* Negation proved: `C208_blade_false`

### C209 A neutron that passes the Fermi chopper stays in one of its channels — partial

* Modelled: the tests of the path
* Proof: by the invariant of C205; negation with a concrete chopper and path
* Note: False of the code: channels with number 0 or less are accepted (Fermi_chop2.comp:116-121, 211): a neutron beside the package passes. Negation proved with a witness; the _partial theorem states what remains.
* Negation proved: `C209_outside_false`

### C210 The Fermi chopper works for every radius of its blades — partial

* Modelled: `off` and the whole `TRACE`
* Proof: Pythagoras; negation for every neutron
* Note: False of the code: for radius 0 the offset is not a number (Fermi_chop2.comp:141), the intersection fails and every neutron passes unchanged, although `blades` has a case for straight blades. Negation proved with a witness; the _partial theorem states what remains.
* Negation proved: `C210_straight_false`

### C211 The choppers extend from ymin to ymax — partial

* Modelled: the intersection with the cylinder
* Proof: by C165; partial: symmetric limits; negation with limits 1 and 2
* Note: False of the code: the cylinder has the height ymax - ymin but is centred at y = 0 (Vertical_T0.comp:118, Fermi_chop2.comp:157). Negation proved with a witness; the _partial theorem states what remains.
* Negation proved: `C211_limits_false`

### C212 The spectrum of the SNS sources is the polygon through the table — partial

* Modelled: `linfuncint`; an array is the list of the values that were written, reading another one is a failure
* Proof: invariant of the search loop; partial: places inside; negation for every table
* Note: False of the code: above the table the last line is continued, below it a value before the array is read (sns_source-lib.cc:135-152): the loop never leaves the index behind the table, so that the message is never printed. Negation proved with a witness; the _partial theorem states what remains.
* Negation proved: `C212_outside_false`

### C213 The distributions of the SNS sources are interpolated by quadratic functions — partial

* Modelled: `quadfuncint`
* Proof: Lagrange interpolation; partial: from the second point; negations for every table and with a concrete one
* Note: False of the code: below the second point, and at the first one, a value before the array is read; the interpolation of an increasing distribution exceeds 1 and falls (sns_source-lib.cc:168-186). Negation proved with a witness; the _partial theorem states what remains.
* Negation proved: `C213_first_false`, `C213_monotone_false`

### C214 The integration of the SNS sources converges to the integral — partial

* Modelled: `integ1` with a number of turns
* Proof: the sums are trapezoidal sums; convergence by uniform continuity; negation with a concrete table
* Note: False of the code: the loop ends as soon as two successive approximations agree (sns_source-lib.cc:212-228): for a spectrum with two peaks the result is a third of the integral. Negation proved with a witness; the _partial theorem states what remains.
* Negation proved: `C214_integral_false`

### C215 The distribution of the energies of the SNS sources is that of the spectrum — proved

* Modelled: `Pcalc` with the limits used in the component
* Proof: induction over the points; the trapezoidal rule is exact for each piece

### C216 The distribution of the emission times of the SNS sources is that of the pulse — partial

* Modelled: `tPcalc`
* Proof: as for C215; partial: the lower limit is a point of the table; negations with a concrete table and for every table
* Note: False of the code: the part of the area between the lower limit and the first point is overwritten (sns_source-lib.cc:296-327); with a first time above the lower limit a value before the array is read. Negation proved with a witness; the _partial theorem states what remains.
* Negation proved: `C216_limit_false`, `C216_first_false`

### C217 The SNS sources find an energy for every random number — partial

* Modelled: `zero_find` with a number of turns; the energy in `SNS_source_r1`
* Proof: intermediate values and halving; partial: functions that are negative at the start; negation for a source with constant spectrum
* Note: False of the code: the search starts at the point behind Emin: for energies between these two it never ends (sns_source-lib.cc:233-255, SNS_source_r1.comp:182). Negation proved with a witness; the _partial theorem states what remains.
* Negation proved: `C217_first_false`, `C217_sign_false`, `C217_source_false`

### C218 The file of an SNS moderator is read as it is — partial

* Modelled: the second part of `sns_source_load`; the memory behind the data is an argument
* Proof: invariant of the loop; partial: the other values; negation for every content of the memory
* Note: False of the code: the loop uses one line more than the file has (sns_source-lib.cc:84-116): memory that was never written becomes the first emission time, and the number of times is one too large. Negation proved with a witness; the _partial theorem states what remains.
* Negation proved: `C218_junk_false`

### C219 The SNS sources aim at the focusing rectangle — partial

* Modelled: `SNS_source_r1`, `SNS_source`: the angles and the direction
* Proof: tangent of a mean of two inverse tangents; partial: the width; negation with a corner
* Note: False of the code: the two angles are chosen independently and used as spherical angles (SNS_source_r1.comp:168-174, 205-207): neutrons to the corners miss the rectangle. Negation proved with a witness; the _partial theorem states what remains.
* Negation proved: `C219_height_false`

### C220 The neutrons of the SNS sources — proved

* Modelled: `TRACE` of `SNS_source_r1`
* Proof: substitution
* Note: For the neutrons for which the component gives a result.

### C221 The emission time of an SNS source belongs to the energy — partial

* Modelled: the distribution of the times for an energy
* Proof: the loop finds the bracket; partial: energies above the first one; negation for every such energy
* Note: False of the code: for energies up to the first one of the table, this one included, values before the arrays are read (SNS_source_r1.comp:185-195). Negation proved with a witness; the _partial theorem states what remains.
* Negation proved: `C221_first_false`

### C222 The SNS sources use the whole spectrum of the file — partial

* Modelled: the length of the spectrum in `sns_source_load`
* Proof: induction over the loop; partial: files with a zero; negation with a concrete file
* Note: False of the code: if the intensity never becomes 0 the last two lines of the file are ignored (sns_source-lib.cc:49-60). Negation proved with a witness; the _partial theorem states what remains.
* Negation proved: `C222_end_false`

### C223 The weights of SNS_source_2020 are proportional to the area of the source — partial

* Modelled: the area in `SNS_source_2020`
* Proof: direct; negation with a line
* Note: False of the code: without a radius and with a side 0 the area is not initialised (SNS_source_2020.comp:149-155). Negation proved with a witness; the _partial theorem states what remains.
* Negation proved: `C223_none_false`

### C224 Orientations mean the same rotation however they are written — proved

* Modelled: `matrix_rotationaboutaxis`, `McStasConvention`, `tomatrix`; a zero axis gives NaN
* Proof: half angle formulas; the specification is the formula of Rodrigues

### C225 The C++ shape built from a description is the body described — proved

* Modelled: the shape renderer with both adaptors and the two extension shapes; units are removed already; the `instrument` and `pyre` shape classes are the attributes that are read
* Proof: induction over descriptions; the specification is a point set defined without matrices; with C27 a statement about the locator

### C226 A shape is the same body in both coordinate systems — partial

* Modelled: the two adaptors
* Proof: induction; partial: without rotations and translations; negation with a translated sphere
* Note: False of the code: rotated and translated shapes end in NotImplementedError in the coordinate system of the instrument scientist (InstrumentScientistCSAdaptor...py:54-58). Negation proved with a witness; the _partial theorem states what remains.
* Negation proved: `C226_moved_false`

### C227 Hollow shapes are their walls — proved

* Modelled: the two handlers
* Proof: by C225

### C228 A composite is the union of its parts where the user put them — partial

* Modelled: `CompositeScatterer`, the dictionary of the geometer, `onCompositeScatterer` for homogeneous elements; the coordinate system of `translate(vector=..)` of the external package is taken to be the implicit one
* Proof: induction over the elements
* Note: Partial: for composites whose shape was not asked for before, with different elements that have a shape; C229 has what fails otherwise.

### C229 Composites can be changed and can contain an element more than once — partial

* Modelled: the same
* Proof: negations with concrete composites; what remains is C228
* Note: False of the code: the shape is remembered on the first query (CompositeScatterer.py:63-69), so elements added later are not in it; the geometer is a dictionary (mcni/Geometer.py:24), so an element added twice is in its last place only; copies have no method shape (ScattererCopy.py). Negation proved with a witness; the _partial theorem states what remains.
* Negation proved: `C229_stale_false`, `C229_twice_false`, `C229_copy_false`

### C230 Zero is a value like others for limits and weights — partial

* Modelled: `a or b` for numbers
* Proof: direct; negations with 0
* Note: False of the code: `or` replaces 0 by the default (CompositeScatterer.py:45-46, KernelComputationEngineRenderer.py:52): no multiple scattering becomes 5 loops, the weight 0 of a kernel becomes 1. Negation proved with a witness; the _partial theorem states what remains.
* Negation proved: `C230_zero_false`, `C230_weight_false`

### C231 Detector tubes with pixels can be built in every direction — partial

* Modelled: `he3tube_withpixels` and the check of the pixels in `onHe3Tube`
* Proof: the locator applied to the positions of the pixels; partial: upright tubes; failure for all long tubes; negation with the default values
* Note: False of the code: the rotated shape is computed but the unrotated cylinder is used (detector/__init__.py:76-88): long tubes in other directions than upwards, the default direction z in the default coordinate system included, fail the check. Negation proved with a witness; the _partial theorem states what remains.
* Negation proved: `C231_default_false`

### C232 Copies of scatterers stand for what they copy — partial

* Modelled: the dispatch of the renderers
* Proof: induction over trees; partial: no copies of homogeneous scatterers or of copies; negation for every composite with such a copy
* Note: False of the code: there is no handler onHomogeneousScattererCopy (ScattererComputationEngineRenderer.py:92-101). Negation proved with a witness; the _partial theorem states what remains.
* Negation proved: `C232_homogeneous_false`

### C233 Units are removed correctly or the value is refused — proved

* Modelled: `remove_unit` and its helpers; a unit of `pyre` is its value in SI and its dimension
* Proof: case distinction, induction over the vector

### C234 The parameters in a kernel file reach the C++ kernel — proved

* Modelled: the nodes of the XML parser, `createKernel`, the handlers of the renderer and the constructors of the binding; the parser for values is a parameter; escaping in attributes as in the XML standard
* Proof: from a relation between attributes and calls, with one constructor per class
* Note: For IsotropicKernel, ConstantEnergyTransferKernel, ConstantQEKernel, ConstantvQEKernel, E_Q_Kernel, Broadened_E_Q_Kernel, LorentzianBroadened_E_Q_Kernel and E_vQ_Kernel.

### C235 Given coefficients are used, otherwise those of the sample — partial

* Modelled: the same
* Proof: partial: no coefficients in the file; negations with concrete files; the kernel with focusing refuses a single one
* Note: False of the code: a coefficient given alone is replaced by that of the sample without a message (ComputationEngineRendererExtension.py:184-197); the parsers of SQkernel, SQEkernel and SvQkernel do not read theirs (kernelxml/parser/SQkernel.py:14-18). Negation proved with a witness; the _partial theorem states what remains.
* Negation proved: `C235_alone_false`, `C235_unread_false`

### C236 Containers of kernels keep kernels, weights and orientations — partial

* Modelled: the same, with containers
* Proof: mutual induction over trees; partial: containers without orientation; negations for every such container and with a concrete kernel
* Note: False of the code: a container with an orientation is refused with TypeError (kernelxml/parser/KernelContainer.py:42-48, CompositeKernel.py:22); the orientation of a kernel that is in no container has no effect (KernelComputationEngineRenderer.py:65-90). Negation proved with a witness; the _partial theorem states what remains.
* Negation proved: `C236_box_false`, `C236_top_false`

### C237 The attribute average is understood or refused — partial

* Modelled: the attribute
* Proof: direct; negation with this text
* Note: False of the code: every text that is not one of the ways to say yes means no (kernelxml/parser/KernelContainer.py:45), e.g. enabled. Negation proved with a witness; the _partial theorem states what remains.
* Negation proved: `C237_false`

### C238 A kernel written to a file can be read back — partial

* Modelled: both renderers and the parser
* Proof: partial: six classes without coefficients, weight 1, no orientation; negations for all kernels of the kind
* Note: False of the code: the range of Q is written with the value of the range of energies (kernelxml/Renderer.py:43-46); containers are written with a tag whose parser takes only containers (hsxml/Renderer.py:30-40, hsxml/parser/CompositeKernel.py:46-48); six classes have no handler; weights, orientations and coefficients are not written; texts are not escaped (kernelxml/Renderer.py:91); all tables go to the same file (line 141). Negation proved with a witness; the _partial theorem states what remains.
* Negation proved: `C238_range_false`, `C238_container_false`, `C238_missing_false`, `C238_weight_false`, `C238_escape_false`, `C238_files_false`

### C239 Auto-normalization makes the mean of I*Q equal to 1 — partial

* Modelled: `_calcNorm` and the normalization
* Proof: linearity of the sum; partial: other norms except 0; negation with a table of two cells
* Note: False of the code: a norm between 0.8 and 1.2 is left as it is (kernelxml/parser/GridSQE.py:58-61). Negation proved with a witness; the _partial theorem states what remains.
* Negation proved: `C239_false`

### C240 A table becomes the C++ grid with the same bins — partial

* Modelled: `onGridSQE`, `onGridSQ`, `onGridSvQ` and the checks of the binding
* Proof: rounding of a quotient that is an integer; partial: bins of equal width; negation with two bins
* Note: False of the code: only the first bin, the ends and the number of bins are compared (bindings/BoostPythonBinding.py:133-141): unequal bins are accepted if the number of steps happens to be right. Negation proved with a witness; the _partial theorem states what remains.
* Negation proved: `C240_false`

### C241 Every kernel in a container knows the sample it belongs to — proved

* Modelled: `setScattererOrigin`
* Proof: mutual induction over trees

### C242 The options of a scatterer file reach C++ and survive writing — partial

* Modelled: the parser of scatterers and the writer, without the shape
* Proof: by C236; partial: reading; negation with a concrete scatterer
* Note: False of the code: number of loops, minimal probability and packing factor are not written (hsxml/Renderer.py:43-57). Negation proved with a witness; the _partial theorem states what remains.
* Negation proved: `C242_written_false`

### C243 Reflections of a laz file are found in whatever columns the comments declare — proved

* Modelled: `parse` with its helpers for texts as lists of characters; `int`, `float` and the external class `Lattice` are parameters; only the newline character ends a line
* Proof: words of a text as a relation, the dictionary of the comments, stable sorting
* Note: The specification of a file (lines, words, labels, declared columns) is separate from the parser.

### C244 Comments of a laz or lau file can be added freely — partial

* Modelled: the same; the regular expression for comments as a machine with two states
* Proof: partial: comment lines with a label of their own and a newline; the three failures for all files and negations with a concrete file
* Note: False of the code: two comments that begin with the same word end in RuntimeError (laz.py:43-44); the newline is removed with a comment after numbers (laz.py:26, 94-95), so the next row is appended and its reflection lost without a message; a comment at the end without newline is read as data. Negation proved with a witness; the _partial theorem states what remains.
* Negation proved: `C244_false`, `C244_inline_false`, `C244_end_false`

### C245 Cross sections of a laz file are those of the unit cell — proved

* Modelled: `getCrossSections`
* Proof: permutation of the three comments

### C246 Reflections of a lau file are read in the order of the rows — proved

* Modelled: `parse` of lau files
* Proof: as for C243

### C247 The total cross section of a powder in Python agrees with the C++ kernel — proved

* Modelled: `total_scattering_cross_section` and the coefficient of the kernel (C++) modelled before
* Proof: termwise, with the thresholds; v2k is 1/k2v in both languages

### C248 A density of states file is read with its unit, whatever comments it has — partial

* Modelled: `doshist_fromascii`; the value of meV is a parameter; a table with unequal rows is a ValueError
* Proof: induction over the lines; partial: comments with words and the unit in the first word; negations with concrete files
* Note: False of the code: a line with nothing but a hash ends in IndexError (read_dos.py:58-59); the unit is searched in the first word of a comment only, so `# energy (meV)` ends in NotImplementedError. Negation proved with a witness; the _partial theorem states what remains.
* Negation proved: `C248_false`, `C248_word_false`

### C249 MPI.barrier is a barrier — partial

* Modelled: nodes as lists of send, receive and marks; two transition systems, one where sent messages wait and one where sender and receiver meet
* Proof: an invariant counts messages (sent = on the way + received), and what a node has done is a prefix of its program; partial: no node leaves before node 0 has entered; two nodes with blocking send; negations for all sizes
* Note: False of the code: node 0 only sends and the others only receive (ParallelComponent.py:106-110): node 0 goes on while no other node has arrived; with three nodes node 1 leaves before node 2 has entered even if send blocks. Negation proved with a witness; the _partial theorem states what remains.
* Negation proved: `C249_false`, `C249_not_barrier_false`, `C249_sync_false`

### C250 Barriers end — proved

* Modelled: the same
* Proof: no duplicate operation in a session; a node waiting for a message of a finished node 0 finds it; each step removes one operation

### C251 Calls of barrier are matched — partial

* Modelled: the same; the generator of channels counts the calls of each process
* Proof: partial: calls node 0 does not make are never left; negation with two nodes
* Note: False of the code: tags are numbers of calls of the process: a node that skipped a barrier takes the old message for the new one and leaves before node 0 enters. Negation proved with a witness; the _partial theorem states what remains.
* Negation proved: `C251_false`

### C252 The events of all nodes are there when they are merged — partial

* Modelled: writing, barrier, merging
* Proof: as for C249; partial: the file of node 0 is there; negation for every number of nodes
* Note: False of the code: barrier does not wait for the others (C249), so the merged file lacks the events of nodes that are slower; the sleep of five seconds (EventAreaMonitor.py:119) bounds nothing. Negation proved with a witness; the _partial theorem states what remains.
* Negation proved: `C252_false`

### C253 The check of the output directory looks at an earlier run — partial

* Modelled: barrier, check, making of directories
* Proof: partial: other nodes use the directory only after the message of node 0; negation for every number of nodes, in both transition systems
* Note: False of the code: the nodes are released before node 0 looks (Instrument.py:226-231): another node may have made outputdir/rank1-step0, and node 0 stops with "output directory exists". Negation proved with a witness; the _partial theorem states what remains.
* Negation proved: `C253_false`

### C254 The axes of NDMonitor are the documented quantities in the documented units — proved

* Modelled: table of quantities, loop over the quantities; constants of physics are symbols, expressions of the table are interpreted, texts of the user are labels
* Proof: case by case, field arithmetic

### C255 NDMonitor measures the expressions of the user — partial

* Modelled: the same
* Proof: partial: names other than coordinates, with unit; negations
* Note: False of the code: the unit is looked up unconditionally (_ndmonitor.py:234), so the documented ndmonitor("x", "inverseX", inverseX="1/x") ends in KeyError; an expression for x, y, z, vx, vy, vz or t is ignored but its unit is used (_ndmonitor.py:230-234). Negation proved with a witness; the _partial theorem states what remains.
* Negation proved: `C255_false`, `C255_unit_false`, `C255_ignored_false`

### C256 A packet size is written once and read back — partial

* Modelled: file as list of digits, position, mode
* Proof: partial: a size set once in a new file; negations for all sizes
* Note: False of the code: setting the same size again writes the digits a second time (PacketSizeStore.py:48-51), so 10 is read as 1010 later; an existing file is opened for reading, so setting the same size fails there. Negation proved with a witness; the _partial theorem states what remains.
* Negation proved: `C256_false`, `C256_reopen_false`

### C257 The analytic reflectivity is that of a supermirror — partial

* Modelled: `StdReflecFunc`, `TableReflecFunc`
* Proof: tanh by its sign and bounds; partial: W > 0, values of the formula; negations with concrete mirrors
* Note: False of the code: m = 0 with W = 0 and alpha = 0 reflects with R0 (ref-lib.cc:67-76 replaces m before it is tested in line 80); W = 0 gives no reflection at all (ref-lib.cc:78-83); alpha (|q| - Qc) > 1 gives a negative reflectivity, e.g. m = 10 (ref-lib.cc:93). Negation proved with a witness; the _partial theorem states what remains.
* Negation proved: `C257_false`, `C257_sharp_false`, `C257_negative_false`

### C258 DiskChopper_v2 passes neutrons that meet a slit — proved

* Modelled: INITIALIZE and TRACE; the numbers of the generator are parameters
* Proof: fmod of the time by the distance of slits; angle as argument of a complex number
* Note: Specification: a slit is there if the angle of the disk differs from that of the neutron by less than half an opening, up to multiples of the distance of slits.

### C259 Filter_gen applies the table to the quantity that the options name — partial

* Modelled: `FilterGen_Mode`, INITIALIZE, TRACE; tables after `Table_Rebin` (even grid) with `Table_Value` modelled before
* Proof: partial: multiply and set inside the table; negations with a concrete table, and for all neutrons
* Note: False of the code: the mode add has no branch of its own and sets the weight (Filter_gen.comp:205-206); the word wavector of the documentation is not known, and the copy in lower case is not used (Filter_gen.comp:107-127): then every neutron passes. Negation proved with a witness; the _partial theorem states what remains.
* Negation proved: `C259_add_false`, `C259_words_false`

### C260 Collimator_radial weights neutrons by the channel they fly to — partial

* Modelled: INITIALIZE and TRACE with `cylinder_intersect` modelled before; the random number of the oscillation is a parameter
* Proof: flight from the axis in polar coordinates; partial: such neutrons without oscillation; negations with concrete collimators
* Note: False of the code: neutrons above or below are absorbed although the documentation transmits them (Collimator_radial.comp:153-159); the ideal collimator has no angular range (Collimator_radial.comp:170-171); a divergence overwrites the number of channels after their widths were computed (Collimator_radial.comp:114-120). Negation proved with a witness; the _partial theorem states what remains.
* Negation proved: `C260_channels_false`, `C260_above_false`, `C260_ideal_false`

### C261 A neutron stays in its channel of Guide_channeled — partial

* Modelled: the trace loop with fuel; the mirrors are those of `Guide.comp` modelled before
* Proof: the steps of a channel are those of a guide around its middle; lifted along the shift
* Note: Missing: that the loop ends.

### C262 The closed form of Bender is the trace of all reflections — proved

* Modelled: INITIALIZE and TRACE; the loops for the weight are powers; `acos` out of range and divisions by 0 are not numbers
* Proof: specification in the complex plane: straight flights inside the ring, mirror reflections, a list of reflections; the path is built by induction on the number of cycles; floor and ceiling in the same way
* Note: Assumed: the radius is larger than the width, the neutron flies forward, and it does not start at a wall along that wall (there the machine divides 0 by 0).

### C263 Bender transports forward flying neutrons only — partial

* Modelled: the same
* Proof: partial: angular momentum is conserved by flights and reflections; negation with a neutron that flies backwards
* Note: False of the code: only atan(vx/vz) is used (Bender.comp:182), so the sign of vz is lost. Negation proved with a witness; the _partial theorem states what remains.
* Negation proved: `C263_false`

### C264 Guide_gravity follows every reflection in the channel of the neutron — partial

* Modelled: INITIALIZE, Gravity_guide_Init, Gravity_guide_Trace, TRACE and `solve_2nd_order`; the random numbers of waviness are parameters; the loop has fuel 1001, the bound of the code
* Proof: the smallest of the five times is the first crossing of a wall by the parabola (intermediate values and convexity); partial: neutrons that do not meet a wall within 1e-10 s of a reflection and are not turned back; a straight guide never turns back; negation with a concrete neutron
* Note: False of the code: flights of less than 1e-10 seconds are ignored (Guide_gravity.comp:306, 322): a neutron that meets an absorbing wall 1e-11 s behind the entrance flies through it and leaves beside the guide with its full weight. Negation proved with a witness; the _partial theorem states what remains.
* Negation proved: `C264_false`

### C265 Guide_gravity conserves the energy — proved

* Modelled: the same
* Proof: the reflection keeps the length of the velocity; flights keep the sum; the rotation of the chopper is around the vertical

### C266 Guide_gravity does not increase the weight — proved

* Modelled: the same
* Proof: clipped reflectivities, induction on the number of reflections

### C267 The phase of Guide_gravity as a chopper matters only modulo a turn — partial

* Modelled: the same
* Proof: partial: angles that are not negative, half a turn; negation with a full turn
* Note: False of the code: fmod keeps the sign, but only angles between 90 and 270 degrees are reduced (Guide_gravity.comp:427-430): a phase of -180 degrees absorbs every neutron of the axis, +180 passes them. Negation proved with a witness; the _partial theorem states what remains.
* Negation proved: `C267_false`

### C268 Guide_gravity makes neutrons fall — partial

* Modelled: the same; mcgravitation is the constant 0 of the library, so the gravity of the simulation and the rotation of the component do not enter
* Proof: partial: free fall along y with the acceleration G to the exit; negation with G = 9.8
* Note: False of the code: G is described as a norm, but is used as the component along y (Guide_gravity.comp:393-395): 9.8 accelerates upwards, and a tilted guide has gravity along its own axis. Negation proved with a witness; the _partial theorem states what remains.
* Negation proved: `C268_false`

### C269 Instruments of McStas are read as they are written — partial

* Modelled: `parse` except the header; regular expressions by a small interpreter with backtracking; `float` is a parameter
* Proof: maximal munch and counting of commas for the expressions, induction over lines and parameters; partial: a specification of the layout of files, separate from the parser; negations with concrete files
* Note: False of the code: an expression in parentheses among the parameters makes the component vanish and another one appear that has the name of the parameter and no type (McStasInstrumentParser.py:94-96, 154-163); values with a comma are cut and values with an equal sign are lost without a message (lines 206-213); AT and ROTATED on one line give a text as coordinate and lose the rotation (line 98); AT without a blank before the parenthesis is lost (lines 257-262). Negation proved with a witness; the _partial theorem states what remains.
* Negation proved: `C269_parentheses_false`, `C269_quotes_false`, `C269_one_line_false`, `C269_blank_false`

### C270 Comments in instruments of McStas do not matter — partial

* Modelled: `_removeComments`
* Proof: induction over the comments; partial: comments of the form /* */; negation with a concrete file
* Note: False of the code: only /* */ is removed: a component behind // is converted (McStasInstrumentParser.py:91, 372-376). Negation proved with a witness; the _partial theorem states what remains.
* Negation proved: `C270_line_comment_false`

### C271 The converted script places components as the instrument file says — partial

* Modelled: the statements of the generated script, `Instrument.append` and the geometer modelled before; construction of components is not modelled
* Proof: invariant of the script; partial: the same reference, numbers, no PREVIOUS; negations with concrete files, from the text to the stored orientation
* Note: False of the code: the reference of the position is also used for the orientation (convertinstrument.py:88-92); PREVIOUS becomes a variable that does not exist (NameError); a position that could not be read becomes the origin (Instrument.py:68, 80). Negation proved with a witness; the _partial theorem states what remains.
* Negation proved: `C271_reference_false`, `C271_previous_false`, `C271_origin_false`

### C272 The configuration of a converted instrument keeps what is no expression — partial

* Modelled: `_coord`, `propagate_values`; `eval` is a parameter
* Proof: induction over nested values; negation with this name
* Note: False of the code: eval is applied to names, types and references too, with the functions of python in its environment (pml.py:183-186): a component named filter loses its name. Negation proved with a witness; the _partial theorem states what remains.
* Negation proved: `C272_names_false`

### C273 Parallel processes get the arguments of the user unchanged — partial

* Modelled: `_buildArgumentList` of the launchers, `build_launch_cmd`; the shell is described for spaces, double quotes and characters without meaning
* Proof: words of concatenated commands by induction; partial: plain words and options whose values have no quotation mark, dollar, backtick or backslash; negations with concrete arguments
* Note: False of the code: a quotation mark in a value ends the quotes of the command, arguments without = are not quoted (MPILauncherBase.py:80-88), the serial launcher quotes nothing (LauncherSerial.py:56). Negation proved with a witness; the _partial theorem states what remains.
* Negation proved: `C273_false`

### C274 A parallel application runs its main function in the workers only — proved

* Modelled: `execute`, `onServer`, `_init`, `launch`; the result of the command is a function
* Proof: all cases

### C275 Working in another directory leaves the working directory as it was — partial

* Modelled: `run_in_dir` with its context manager, `samplecomponent`; directories are abstract
* Proof: all cases; partial: samples only without exceptions; negation with an exception
* Note: False of the code: samplecomponent has no finally: after an exception in the sample the program stays in the directory of the sample (sample/__init__.py:29-40). Negation proved with a witness; the _partial theorem states what remains.
* Negation proved: `C275_false`

### C276 A component is found if exactly one supplier has it — partial

* Modelled: `find`, without the warning about close matches
* Proof: the list that is found has no repetitions and exactly the components that are wanted; partial: not both given; negation with a component that does not exist
* Note: False of the code: if category and supplier are given nothing is checked (_find_component.py:16-17). Negation proved with a witness; the _partial theorem states what remains.
* Negation proved: `C276_false`

### C277 ESS_moderator_short emits the documented pulse — partial

* Modelled: INITIALIZE and TRACE completely, with ten random numbers as arguments
* Proof: `C277_place`, `C277_mean`: substitution in the integral over the time, then step functions of the branches. The sum of the pulses with tau and tau1 for coupled water is what the code does; the description does not mention tau1 in the formula
* Note: False of the code: `branchframe = 0` is accepted, but then the pulse itself is never emitted (`C277_frame_false`); the times sampled are between -tau log(1 + 1e-12) and 27.6 tau, as the statement says. Negation proved with a witness; the _partial theorem states what remains.
* Negation proved: `C277_frame_false`

### C278 ESS_moderator_long emits the documented pulse — partial

* Modelled: INITIALIZE and TRACE completely, with ten random numbers as arguments
* Proof: `C278_place`, `C278_frame`, `C278_bulk_partial` (all branches of the bulk), `C278_tail_partial` (second spectrum, if n = n2); `iexp` and the long pulse are those of the description of the component
* Note: False of the code: the tail of the first spectrum lacks the correction for the shape of the pulse (only its comment is left, line 189), so that with the default parameters its weight is too large (`C278_first_false`); in the tail of the second spectrum the correction is divided by `n` instead of `n2` (line 204, `C278_second_false`). Negation proved with a witness; the _partial theorem states what remains.
* Negation proved: `C278_first_false`, `C278_second_false`

### C279 Monochromator_curved reflects from the slab that the neutron meets — partial

* Modelled: INITIALIZE and TRACE completely, with the random numbers as arguments; the weight of reflected neutrons (a quadrature with 15 nodes) is kept as in the code
* Proof: `C279_new`, `C279_misses`, `C279_focus`, `C279_partial`, `C279_specular`; missing: the weight of the reflected neutrons against an integral over the mosaic, and gravity
* Note: False of the code: the slab is chosen by where the plane x = 0 is met: a neutron passes an opaque slab unchanged if that is in the cell of the neighbour (`C279_neighbour_false`), and a neutron that is behind the turned slab already is moved back in time (`C279_time_false`); a radius of curvature smaller than the crystal is accepted and gives numbers that are not defined (`C279_radius_false`); neutrons along the normal of a slab are never reflected (`C279_normal_false`). Negation proved with a witness; the _partial theorem states what remains.
* Negation proved: `C279_time_false`, `C279_neighbour_false`, `C279_radius_false`, `C279_normal_false`

### C280 HYSPEC_Guide_curved guides neutrons along a polygon around a circle — partial

* Modelled: TRACE completely; the walls of a piece are those of `Guide.comp`
* Proof: `C280_partial` (all pieces, by induction), `C280_arc` (the frames are those of tangents of a circle), `C280_ends`, `C280_gap` (how large the gap has to be), `C280_single`; missing: gravity, neutrons that do not come forward to an entrance
* Note: False of the code: the neutron is left in the frame of the last piece, shifted along z: a neutron that flies straight through without touching a mirror is returned at another place and with another direction (`C280_frame_false`; the code that turns back is a comment); without a gap between the pieces neutrons are moved back in time to the next entrance (`C280_time_false`). Negation proved with a witness; the _partial theorem states what remains.
* Negation proved: `C280_frame_false`, `C280_time_false`

### C281 Guide_wavy reflects from mirrors with waviness — partial

* Modelled: INITIALIZE and TRACE completely, with the sequence of random numbers as an argument; the tests for the nearest mirror and the reflectivity are those of `Guide.comp`
* Proof: `C281_partial` (induction over the reflections), `C281_width` (full width at half maximum), `C281_angle` (size of the tilt), `C281_speed`; missing: gravity
* Note: False of the code: if the tilt is larger than the angle of incidence the neutron is mirrored into the wall (the sign of the product with the normal is dropped by `fabs`) and reflected again at the same place, with the reflectivity twice (`C281_behind_false`). Negation proved with a witness; the _partial theorem states what remains.
* Negation proved: `C281_behind_false`

### C282 The parameters of a McStas component are read as they are declared — partial

* Modelled: `_setDefParams`, `_setListParams`, `_parseDefComp`, `_cleanupText` with the interpreter of regular expressions of C269
* Proof: search at the beginnings of lines, splitting and stripping commute up to white space; partial: nothing of this kind in quotes
* Note: False of the code: a comma in quotes separates parameters, a default with an equal sign in quotes is lost (McStasComponentParser.py:343, 372-375; `C282_quoted_false`); comments // are not removed, and one of them inside a list makes the whole list empty without a message (lines 306, 351-352; `C282_comment_false`). Negation proved with a witness; the _partial theorem states what remains.
* Negation proved: `C282_quoted_false`, `C282_comment_false`

### C283 The generated component has the parameters and defaults of the McStas component — partial

* Modelled: `Parameter`, `_addDescription`, `parseComponent` without the parsing of the header (its name and descriptions are arguments); float and int of python are arguments
* Proof: all cases of the types, induction over the lists; partial: defaults that are numbers or texts
* Note: False of the code: a default that is an expression becomes 0 without a message (ComponentInfo.py:95-98), as freq=50.0/3.0 in sources/original/ESS_moderator_long.comp (`C283_expr_false`). Negation proved with a witness; the _partial theorem states what remains.
* Negation proved: `C283_expr_false`

### C284 The sections of a McStas component are found and SHARE is divided completely — partial

* Modelled: `_parseBodySections`, `_format_share_str`; quoted names without escapes
* Proof: a head that begins before the text of interest would have to contain its newline; induction over the lines; partial: two lines or more
* Note: False of the code: a section SHARE on one line is dropped without a message (__init__.py:66; `C284_single_false`). Negation proved with a witness; the _partial theorem states what remains.
* Negation proved: `C284_single_false`

### C285 The slits of FermiChopper turn with the chopper and have the given curvature — partial

* Modelled: `FC_xrot`, `FC_zrot`, and the curvature in INITIALIZE; the memory of the uninitialised variable is an argument
* Proof: rotation by an angle linear in time; partial: each half of a wall is an arc
* Note: False of the code: for curvature 0 the member C_slit is never set (FermiChopper.comp:282, 347-352; `C285_memory_false`); with a curvature each wall is two arcs with a corner in the middle (lines 200-206; `C285_arc_false`). Negation proved with a witness; the _partial theorem states what remains.
* Negation proved: `C285_arc_false`, `C285_memory_false`

### C286 FermiChopper uses the geometry that is given — partial

* Modelled: INITIALIZE without the messages
* Proof: all branches; `C286_same`, `C286_time`
* Note: False of the code: if the slits do not fit, floor(radius/w) of them are left although twice as many fit (lines 323-324; `C286_slits_false`). Negation proved with a witness; the _partial theorem states what remains.
* Negation proved: `C286_slits_false`

### C287 The search for a time in FermiChopper stays in the interval and finds the time — partial

* Modelled: `FC_zintersect`, `FC_xintersect` as one function over the function searched; the accuracy is that of the code
* Proof: invariant of the loop: each new time is between the ends of the interval; for linear functions the first step is exact. Missing: an estimate of the error for a chopper that turns
* Note: Range for every function; exact for a chopper at rest; no estimate of the error for one that turns.

### C288 FermiChopper lets neutrons pass that stay in a slit — partial

* Modelled: TRACE completely (gravity off in the theorems)
* Proof: case analysis of TRACE; `C288_rest`: exact for a chopper at rest; `C288_even`
* Note: False of the code: the path is compared with the slit at three times only (lines 503-540), one of which is compared with an interval it does not belong to (line 529), so neutrons cross blades (`C288_blades_false`); with an odd number of slits the middle one is divided by a wall (floor(x/w), lines 503-507; `C288_single_false`). Negation proved with a witness; the _partial theorem states what remains.
* Negation proved: `C288_single_false`, `C288_blades_false`

### C289 The walls of FermiChopper are mirrors — partial

* Modelled: the reflection and the loop over reflections of TRACE
* Proof: `C289_mirror_partial` at rest, `C289_once_partial` for a wall met in the second half of the way, `C289_speed_partial` for every chopper with straight slits
* Note: False of the code: the velocity of the wall is ignored (lines 581-610; `C289_moving_false`); after a reflection the neutron is taken to be in the slit on the other side (n1 = n3, line 612), so with perfect mirrors neutrons are absorbed (`C289_lost_false`). Negation proved with a witness; the _partial theorem states what remains.
* Negation proved: `C289_moving_false`, `C289_lost_false`

### C290 The histogram of a McStas monitor has the counts at the coordinates they belong to — partial

* Modelled: `get_histogram` of nine monitors without rounding, over the C++ monitors of C168-C173; the histogram package (centers of bins, shape of the data) is an assumption
* Proof: `C290_energy`, `C290_wavelength`, `C290_hdiv`, `C290_divpos`, `C290_divergence` complete; `C290_tof_partial`: times outside of the range are counted at the ends; `C290_psd_partial`, `C290_iqe_partial`, `C290_sphere_partial` say what the coordinates are; hypotheses on the flight to the monitor as in C168-C173
* Note: False of the code: PSD_monitor.py:34-35 and IQE_monitor.py:59-62 use the lower edges of the bins as coordinates: half a bin off (`C290_psd_false`); PSD_monitor_4PI.py:30 gives azimuths from 0 to 360 for channels that run from -180 to 180: a neutron straight ahead is shown at 180 degrees (`C290_sphere_false`). Negation proved with a witness; the _partial theorem states what remains.
* Negation proved: `C290_psd_false`, `C290_sphere_false`

### C291 The histogram of a monitor can be made whatever the rounding — partial

* Modelled: the axes with a rounding function after each operation; `dbl` is rounding to 53 bits, half to even, without bounds of the exponent; `arange` of numpy has ceil((stop - start)/step) numbers; data of another shape are an error
* Proof: `C291_partial`: for the other monitors an estimate of the errors of all operations, for every rounding with relative error u
* Note: False of the code: the stop of the axis is an exact multiple of the step in L_monitor.py:23, PSD_monitor.py:34-35, IQE_monitor.py:59-62 and PSD_monitor_4PI.py:30-33, so rounding decides: wavelengths from 1 to 4 in 10 channels give 11 coordinates, and no histogram (`C291_wavelength_false`, `C291_psd_false` with 49 columns, `C291_iqe_false`, `C291_sphere_false` with 161 columns). Negation proved with a witness; the _partial theorem states what remains.
* Negation proved: `C291_wavelength_false`, `C291_psd_false`, `C291_iqe_false`, `C291_sphere_false`

### C292 A McStas component has the parameters that were set last — partial

* Modelled: `__init__`, `__setattr__`, `__getattr__`, `_cpp_instance`; attributes of classes are not modelled
* Proof: two dictionaries followed through the assignments by induction; `C292_engine` complete
* Note: False of the code: values given at construction are also put into the `__dict__` (base.py:11-12), where assignments do not reach them: comp.filename = "b.dat" changes the file of the C++ part, reads as before, and the histogram goes to the old file (`C292_read_false`); restore_neutron=True given at construction cannot be switched off before the first round (`C292_restore_false`); __getattr__ recurs without end on an object made without __init__ (`C292_blank_false`). Negation proved with a witness; the _partial theorem states what remains.
* Negation proved: `C292_read_false`, `C292_restore_false`, `C292_blank_false`

### C293 Each round of a monitor writes the data of this round — partial

* Modelled: `process`, `_dumpData`, `_histogramOutputFilename`, `saveHistogram`; the C++ part is any function of parameters and neutrons; names without directories for splitext
* Proof: all steps of a round; `C293_round` complete
* Note: False of the code: two monitors with files that differ only by the extension write the same histogram (monitors/base.py:29-31; `C293_names_false`). Negation proved with a witness; the _partial theorem states what remains.
* Negation proved: `C293_names_false`

### C294 The I(Q,E) monitor is normalized by the coverage of its channels — partial

* Modelled: the replacement of small numbers and the keeping of the normalization; the random neutrons are not modelled
* Proof: case analysis
* Note: False of the code: the normalization is computed once and kept when parameters change (IQE_monitor.py:18-23; `C294_kept_false`). Negation proved with a witness; the _partial theorem states what remains.
* Negation proved: `C294_kept_false`

### C295 The axes of an NDMonitor fit its counts whatever the rounding — proved

* Modelled: the boundaries with a rounding function after each operation; histogramdd has the shape of the numbers of bins
* Proof: error bounds relative to the width of a bin; the quotient is n + 0.1 up to 0.05; the margin of a tenth of a bin in the code is what makes it true. `C295_exact` is the link to the model without rounding (C26)

### C296 A density of states has one energy for each value whatever the rounding — partial

* Modelled: `arange` in DOS.py:44 and multiphonon.py:51-56 with rounding
* Proof: relative errors of multiples of the step; `C296_doubles` for all N below 2^31; partial: three times as many, or one more
* Note: False of the code: the end of the extended axis in multiphonon.py:55-56 is an exact multiple of the step: for energies 0, 2.3, ... of five points there are sixteen instead of fifteen (`C296_more_false`); the extra point only is a zero more. Negation proved with a witness; the _partial theorem states what remains.
* Negation proved: `C296_more_false`

### C297 Smoothing keeps the place of what is smoothed — partial

* Modelled: `smooth` completely, with the windows of numpy
* Proof: formula for every value; symmetry of the windows; partial: length, bounds, and that lines are moved by exactly one point
* Note: False of the code: the slice y[(window_len//2-1):-(window_len//2)-1] (utils.py:142) is centred one point too early: every smoothed density of states is moved by one step to higher energy (`C297_false`). Negation proved with a witness; the _partial theorem states what remains.
* Negation proved: `C297_false`

### C298 The density of states used in kernels is normalised and starts with a parabola — partial

* Modelled: `linear_regression`, `fitparabolic`, `nice_dos`; real numbers; values that are not numbers are errors
* Proof: least squares by completing the square; invariant of the search; the specification of the fit does not mention the regression; interpolation by induction over the points
* Note: False of the code: the largest energy of data with fewer than 500 points is lost (utils.py:26; `C298_end_false`). Negation proved with a witness; the _partial theorem states what remains.
* Negation proved: `C298_end_false`

### C299 A density of states that is prepared is accepted by C++ and the data of the user stay as they are — partial

* Modelled: the same, and the constructor of C++ of C42, C106
* Proof: the parabola of at least 20 points is what `_compute_sod` checks (C106); a positive value survives smoothing and fit; partial: the array of the caller with fewer than 500 points
* Note: False of the code: the fit and the normalisation are done in place: a histogram with 500 points or more is overwritten by making a kernel from it (utils.py:37, 69; `C299_caller_false`). Negation proved with a witness; the _partial theorem states what remains.
* Negation proved: `C299_caller_false`

### C300 The gas of a helium-3 detector absorbs as one over v — proved

* Modelled: `numberDensity`, `absorption_coefficient`, `scattering_coefficient`
* Proof: the quotient of two speeds computed by the conversion of C08; the reference speed of the code is bounded between 2200 and 2201 m/s

### C301 The pixel of the resolution calculation detects with the probability of absorption — proved

* Modelled: `interact_path1` over any shape of C11-C14; neutrons that miss the pixel are not modelled here: the composite does not call it for them
* Proof: formula for the weight; integral of an exponential

### C302 The pixel of the resolution calculation does not make weight — partial

* Modelled: the same
* Proof: partial: weight at least epsilon and a pixel not longer than an absorption length
* Note: False of the code: a neutron that leaves before the time asked for gets the weight numeric_limits<float>::epsilon whatever its own weight was, also 0 (DGSSXResPixel.cc:75-83; `C302_undetected_false`); the weight of detection at one time is a density and may be larger than 1 (`C302_gain_false`). Negation proved with a witness; the _partial theorem states what remains.
* Negation proved: `C302_undetected_false`, `C302_gain_false`

### C303 The mean weight of Source_gen is the flux of its Maxwell spectra — partial

* Modelled: INITIALIZE and TRACE without the files for divergences; a flux file is a function; six random numbers as arguments
* Proof: substitution in the integral over the wave length; the primitive of the Maxwell spectrum; `C303_normal`: normalisation and the constant 949/T to one part in a thousand; partial: first temperature and flux not 0
* Note: False of the code: the second and third spectrum are ignored if the first temperature is 0, documented as none (Source_gen.comp:518; `C303_second_false`). Negation proved with a witness; the _partial theorem states what remains.
* Negation proved: `C303_second_false`

### C304 The wave lengths of Source_gen are those asked for — partial

* Modelled: the same
* Proof: all branches of the initialisation; partial: limits of the wave length or of the energy
* Note: False of the code: Lambda0 is set to 0 in line 205, so that a mean wave length with a spread ends the program (`C304_mean_false`), and without a spread all neutrons are absorbed (`C304_single_false`); limits of the energy in the wrong order are accepted and all neutrons absorbed. Negation proved with a witness; the _partial theorem states what remains.
* Negation proved: `C304_mean_false`, `C304_single_false`

### C305 The neutrons of Source_gen start in the source and fly to the target — partial

* Modelled: the same
* Proof: partial: distance not 0 and no length
* Note: False of the code: with distance 0, when the size of the target is a divergence, the z component of the direction is 0 for every neutron (lines 490-505; `C305_divergence_false`); the direction does not take into account the position along a source with a length (`C305_length_false`); if the radius is given as well as height and width, the points are in the rectangle and the weight is that of the disk (lines 399, 473; `C305_area_false`); the time is not set. Negation proved with a witness; the _partial theorem states what remains.
* Negation proved: `C305_divergence_false`, `C305_length_false`, `C305_area_false`

### C306 phi1 is the Debye function of order one — partial

* Modelled: `phi1` with its 34 terms
* Proof: geometric series under the integral, integration term by term (sums of norms), the series of the logarithm, the value of zeta at 2; bound of the rest; partial: error at most (T/TD)^2 exp(-35 TD/T)/17. `C306_limits` is about the specification
* Note: False of the code: the series is cut after 34 terms, which are not enough for temperatures far above the Debye temperature: more than two percent too large for T = 30 TD (vogel.py:12; `C306_high_false`); for T = 0 there is a ZeroDivisionError (`C306_zero_false`). Negation proved with a witness; the _partial theorem states what remains.
* Negation proved: `C306_high_false`, `C306_zero_false`

### C307 phi3 is the Debye function of order three — partial

* Modelled: `phi3` with its 34 terms
* Proof: the same with the value of zeta at 4
* Note: False of the code: the same (vogel.py:20; `C307_high_false`). Negation proved with a witness; the _partial theorem states what remains.
* Negation proved: `C307_high_false`

### C308 The factor B of an element is that of the Debye model — partial

* Modelled: `AtomicScattering.B`, `theta`, `getDebyeTemp`, the table, `keepletters`; the masses of the package periodictable are an argument
* Proof: the displacement is specified by the density of modes of the Debye model and the hyperbolic cotangent; substitution; partial: symbols of elements in the table, 0 < T <= 4 TD
* Note: False of the code: the Debye temperature is looked up by the name with digits and signs although the mass is not: iron-57 gets 1000 K instead of 470 K, with a warning (atomic_scattering.py:35, 42; `C308_isotope_false`); T = 0 raises an exception (`C308_zero_false`). Negation proved with a witness; the _partial theorem states what remains.
* Negation proved: `C308_isotope_false`, `C308_zero_false`

### C309 The pulse of the analytic moderators is that of Ikeda and Carpenter — proved

* Modelled: `ikeda_carpenter_function_sp`, `f_sp`, `cummulative_f_sp`, and the same formula inside `ikeda_carpenter_function_sp_find_t`; equal decay constants divide by zero and are excluded
* Proof: the specification is the convolution; closed form by a primitive; sign by the remainder of the exponential series on both sides of 0; derivative of the distribution function; limit

### C310 The time in the short pulse mode is found — partial

* Modelled: both searches with bisection, secant and the limits of turns
* Proof: invariant of the search: the number is between the values at the ends; the witness is followed through nine bisections and 41 secant steps with estimates; partial: if the search ends (`SNS_source_analytic`), and if the number is at most the value at the end (`C310_four_partial`)
* Note: False of the code: SNS_source4 starts the search with the unnormalised value at the end of the range (SNS_source4.comp:289): with a window of time that holds 8 percent of the pulse and the random number 0.9999 the search runs away and the program aborts (`C310_abort_false`). Negation proved with a witness; the _partial theorem states what remains.
* Negation proved: `C310_abort_false`

### C311 The long pulse is the short pulse averaged over the protons — proved

* Modelled: `ikeda_carpenter_function_lp`, `f_lp`, `cummulative_f_lp`, `integral_integral_IC`
* Proof: the specification is the mean over the arrival times; fundamental theorem for functions of the delayed time; the constant 1 which the comment in SNS_source_analytic.comp:653 doubts is right

### C312 The time in the long pulse mode is found — partial

* Modelled: both searches
* Proof: as C310; the witnesses take the number that belongs to the middle of the range; partial: `SNS_source_analytic`, if the search ends, accuracy 1e-3
* Note: False of the code: in SNS_source4 the delay is added twice (line 627; `C312_delay_false`), a term of `intint_ikecar` has the wrong sign (line 454; `C312_sign_false`), the term b/a/a(1+2l+3l^2) has the wrong sign and in `CImin` (tt-T) stands for (T-tt) (line 566). Negation proved with a witness; the _partial theorem states what remains.
* Negation proved: `C312_delay_false`, `C312_sign_false`

### C313 The way to draw the energy does not change the intensity — partial

* Modelled: the four ways to draw the energy, `spectral_function`, `CItot`; the table of energies of `sample_E=0` is not modelled
* Proof: substitution in the integrals, continuity of the spectrum; partial: the three uniform ways
* Note: False of the code: SNS_source4 gives the mean of the spectrum over the range and not the number of neutrons promised (lines 776-796; `C313_units_false`); in SNS_source_analytic E0 has no value when the loop of `CItot` begins, and the first value of the spectrum is taken at an energy in meV (lines 216-220; `C313_table_false`); other values of sample_E go on without values in SNS_source4. Negation proved with a witness; the _partial theorem states what remains.
* Negation proved: `C313_units_false`, `C313_table_false`

### C314 The weights give the number of neutrons in the window of time — partial

* Modelled: the choice of the window and of the time in both TRACE sections
* Proof: substitution; partial: uniform times in the long pulse mode, and in SNS_source4 (`C314_four_partial`)
* Note: False of the code: in SNS_source4 times from the distribution have the weight 1 whatever part of the pulse the window holds (line 814; `C314_weight_false`; also the documentation of sample_t exchanges 0 and 1); in the short pulse mode of SNS_source_analytic the length of the range is counted from tinmin (line 1019), so that times are beyond the window (`C314_window_false`) and the number of neutrons is wrong (`C314_number_false`). Negation proved with a witness; the _partial theorem states what remains.
* Negation proved: `C314_weight_false`, `C314_window_false`, `C314_number_false`

### C315 The position and energy monitor counts each neutron in the right cell — partial

* Modelled: INITIALIZE and TRACE completely, with `box_intersect` and `PROP_DT` modelled before
* Proof: the first time of `box_intersect` is the entry (C165); three indices of limited channels; partial: energy and wavelength, flights that meet no edge, no gravity; `C315_keywords` for the keywords
* Note: False of the code: the time of flight is taken before the flight to the monitor (line 156; `C315_time_false`); a neutron that starts inside of the 0.1 mm of the monitor, e.g. on its middle plane behind another monitor, is absorbed and not counted (line 166; `C315_start_false`); a height of 0 is accepted (line 96; `C315_area_false`). Negation proved with a witness; the _partial theorem states what remains.
* Negation proved: `C315_time_false`, `C315_start_false`, `C315_area_false`

### C316 The table of the monitor is in the units and channels it says — partial

* Modelled: the numbers of the table, without rounding
* Proof: identities; `C316_density` holds for all, the edges with an upper limit
* Note: False of the code: without an upper limit the lower limit is ignored (lines 127-131; `C316_axis_false`). Negation proved with a witness; the _partial theorem states what remains.
* Negation proved: `C316_axis_false`

### C317 The errors of the table are the statistical errors — partial

* Modelled: the errors of the table and of the total
* Proof: sum of squares against square of sum; partial: the formula with the number of neutrons instead of 1
* Note: False of the code: `mcget_run_num` is the constant 1 (misc_macros.h:31): the error of every cell is 0 (`C317_zero_false`) and that of the total is the root of a negative number (`C317_total_false`). Negation proved with a witness; the _partial theorem states what remains.
* Negation proved: `C317_zero_false`, `C317_total_false`

### C318 Every neutron scattered by a powder line obeys the law of Bragg — proved

* Modelled: the coherent part of TRACE with `rotate` of C161; random numbers are arguments; doubles are real numbers
* Proof: rotation about an axis perpendicular to the velocity, then about the velocity: scalar products; `C318_wavevector` follows the constants of the code to 1e-7

### C319 Focusing the cones changes only the statistics — partial

* Modelled: lines 586-607 and the velocity
* Proof: the angles in the opening are two intervals; substitution in two halves; partial: one neutron, flying along z for the angle with the horizontal plane
* Note: False of the code: the member d_phi is set to 0 when a cone lies within the opening (line 590): this and all neutrons behind it are no longer focused (`C319_history_false`). Negation proved with a witness; the _partial theorem states what remains.
* Negation proved: `C319_history_false`

### C320 The cross sections of the powder are those of its lines — partial

* Modelled: INITIALIZE without the header of the table, `my_s`
* Proof: identities of real numbers; sum over the lines by induction
* Note: False of the code: the sum my_s_v2_sum is over all lines, also those with q > 2k (lines 474, 546): below the edge neutrons are attenuated by lines that cannot scatter them (`C320_edge_false`). Negation proved with a witness; the _partial theorem states what remains.
* Negation proved: `C320_edge_false`

### C321 The weights of the powder sample give single scattering — partial

* Modelled: TRACE completely; gravity off in the theorems
* Proof: partial: means over three kinds, over the lines and over the two halves of the way, for a sample without a hollow and without focusing
* Note: False of the code: the way before the scattering is speed times time and includes the hollow (line 557; `C321_hollow_false`); half of the points are put on the near part even if that has no length: a neutron that starts in the hollow is scattered in the hollow (lines 540-544; `C321_start_false`); without lines the neutrons chosen for them go on with their full weight, 1.9 times as many come out as went in with the defaults (line 572; `C321_nolines_false`). Negation proved with a witness; the _partial theorem states what remains.
* Negation proved: `C321_nolines_false`, `C321_hollow_false`, `C321_start_false`

### C322 The table of lines is read as it is written — partial

* Modelled: the loop over the rows; the columns of the table are given; what is found in the memory outside of the list is an argument
* Proof: induction over the rows with the counters as invariant; partial: all spacings different. `C322_columns` for the columns
* Note: False of the code: the multiplicity of the last line is compared with what is behind the list (line 351; `C322_memory_false`); only the first line of the table can be recognised as repeated, since the counters are not reset for other ones, and a last line that is not repeated is set to 1 instead of a copy (lines 348-360; `C322_groups_false`). Negation proved with a witness; the _partial theorem states what remains.
* Negation proved: `C322_memory_false`, `C322_groups_false`

### C323 The crystal has the cell that is asked for — partial

* Modelled: the cell as it is read and completed, lines 320-430; the header is given by its numbers
* Proof: scalar products of the edges made of lengths and angles; case analysis; partial: right-handed cells
* Note: False of the code: a left-handed cell gets a reciprocal lattice of the wrong sign (`C323_hand_false`); angles in the header of a table turn the edges of the parameters into their standard orientation (`C323_orient_false`); if one edge is missing the default overwrites others (`C323_default_false`). Negation proved with a witness; the _partial theorem states what remains.
* Negation proved: `C323_hand_false`, `C323_orient_false`, `C323_default_false`

### C324 The spread of a reflection is that of the mosaic blocks — partial

* Modelled: the axes and widths of a row, lines 438-566
* Proof: eigenvalues and eigenvectors of a form of two variables; positive by the identity of Lagrange with weights; partial: mixed term 0 or above the tolerance of the code
* Note: False of the code: the widths are documented as RMS and used as full widths at half maximum (lines 86-93, 464, 477, 489; `C324_rms_false`); a row 0 0 0 gives something that is not a number (`C324_zero_false`). Negation proved with a witness; the _partial theorem states what remains.
* Negation proved: `C324_rms_false`, `C324_zero_false`

### C325 Transmission and multiple scattering have the right probabilities — partial

* Modelled: one turn of the loop and the loop; gravity in `C325_turn`, too
* Proof: substitution in the integral over the random number; homogeneity of the scattering in the weight; `C325_even` by C162
* Note: False of the code: with p_transmit = 0 the transmitted neutrons are lost (lines 819-836; `C325_zero_false`); with order = 1 a neutron leaves from the point of scattering without attenuation on the way out (line 903; `C325_order_false`). Negation proved with a witness; the _partial theorem states what remains.
* Negation proved: `C325_zero_false`, `C325_order_false`

### C326 Diffraction by the crystal is elastic and its strength is that of the table — partial

* Modelled: TRACE, with the list of reflections of C133-C135
* Proof: as C135 for the strength, C38 for the choice; partial: the speed up to the factor K2V V2K
* Note: False of the code: K2V and V2K are not inverse to each other, so that the speed changes in each diffraction (`C326_energy_false`); in the powder mode the outgoing velocity does not depend on the incoming direction (lines 702-707; `C326_powder_false`); a table that is not sorted by length is cut at the first long vector (line 726; `C326_sorted_false`). Negation proved with a witness; the _partial theorem states what remains.
* Negation proved: `C326_energy_false`, `C326_powder_false`, `C326_sorted_false`

### C327 The walls of an elliptical guide lie on the ellipse with the given focal points — proved

* Modelled: INITIALIZE completely, `option` as one of its words; messages are not modelled
* Proof: half axes of the ellipse; the distances to the focal points are a -+ wc/a; `C327_joined` for all parameters that are accepted

### C328 The walls of a parabolical guide lie on the parabola with the given focal point — proved

* Modelled: the same
* Proof: distance to the focal point minus distance along the axis

### C329 The segments of a file are those of the guide, and the guide is bent as asked for — partial

* Modelled: lines 234-281 with the number of turns of the loop over the file; lines of four numbers
* Proof: induction over the lines; partial: last line with an end, not more than segno segments
* Note: False of the code: `feof` is only true after a last line with an end has been followed by another attempt to read, and the count is reduced by one in any case: a last line without an end is lost (lines 247-257; `C329_end_false`); the arrays have segno entries whatever the file holds (lines 139-150; `C329_room_false`); the angle between segments is l/curvature/segno also if the file has another number of segments (line 466; `C329_bend_false`). Negation proved with a witness; the _partial theorem states what remains.
* Negation proved: `C329_end_false`, `C329_room_false`, `C329_bend_false`

### C330 Neutrons fly through the segments by straight flights and reflections — partial

* Modelled: TRACE completely, the walls of a segment as in C180
* Proof: the loops as in C180 and C280, with the reflectivity of C257; partial: guides that are not curved. `C330_speed` for all guides
* Note: False of the code: the velocity is turned where the neutron is behind its last reflection, not at the end of the segment (lines 610-621): in any curved guide neutrons that touch no wall are stopped (`C330_curve_false`). Negation proved with a witness; the _partial theorem states what remains.
* Negation proved: `C330_curve_false`

### C331 The application that is started gets the arguments of the user — partial

* Modelled: the text written to run.sh; how a shell divides a line into words is the specification of C273 (`Launch.shell`)
* Proof: partial for plain interpreters and directories and arguments without quotes, dollars, backquotes and backslashes (spaces and empty arguments are covered), by induction over the arguments; false for an argument with quotes (one argument becomes two) and for a directory with a space
* Negation proved: `C331_quote_false`, `C331_directory_false`

### C332 Post-processing uses the number of nodes the user asked for — partial

* Modelled: `_get_nodes_option` on any list of arguments; `int` of digits only
* Proof: partial for arguments before the option in which `.nodes` is not found; false: `--title=for.nodes` raises AssertionError although `--mpirun.nodes=4` is given
* Negation proved: `C332_false`

### C333 Post-processing scripts are run behind a successful simulation, and nothing is deleted before they are done — partial

* Modelled: `run` with the return codes of the simulation and of the scripts as parameters; `shlex.split` for paths without quotes
* Proof: partial if the number of nodes can be read; false: with an argument as in C332 the simulation succeeds and none of its scripts is run
* Negation proved: `C333_false`

### C334 Every component of the list becomes a facility of the instrument — partial

* Modelled: the body of `class Inventory` as a namespace that the loop, `exec` and `del` change; names are identifiers
* Proof: partial for lists that are not empty and have none of the names `name`, `code` and `facility`; false for these: no class for the empty list (NameError) and for `facility` before another component (TypeError), components `name` and `code` vanish without an error
* Negation proved: `C334_empty_false`, `C334_name_false`, `C334_facility_false`

### C335 The report about two sets of settings tells exactly their differences — proved

* Modelled: `compare` and `createReport` as recursive functions on trees; the three lines about a setting are one; dictionaries as made by `RegistryToDict` (each has a name, `components` only if there are some)
* Proof: induction over the size of the first registry; membership in the dictionaries of differences is computed by the two loops

### C336 A report without differences means equal settings — partial

* Modelled: the same
* Proof: `C336_same` and `C336_partial` from C335; false for names: a component that was replaced by another one (its `name` differs) gives the same report as equal registries (`C336_name_false`, line 67 skips it, line 34 overwrites the title); for a value None that is missing in the other registry; and there is no report at all if one registry is empty (TypeError)
* Negation proved: `C336_name_false`, `C336_none_false`, `C336_empty_false`

### C337 The variables of DECLARE become members of the type that C gives them — partial

* Modelled: `_parse` and `_parse_declaration` on any text; white space of ascii
* Proof: partial for declarations whose type is one word with a space after it, with any blanks, stars and numbers of variables, by induction over the variables and declarations; false for `long double a, b` (b is a long), `char* a, b` (b is a pointer), a comment `//` before a declaration (its variables become comments) and a tab after the type (RuntimeError)
* Negation proved: `C337_words_false`, `C337_star_false`, `C337_comment_false`, `C337_tab_false`

### C338 The output parameters of a component are public members — partial

* Modelled: the two lists in lines 45-54
* Proof: partial from C337; false for arrays: `a[3]` is compared with `a`, so the output parameter is private
* Negation proved: `C338_false`

### C339 The parameters of a component have the values given to the constructor before INITIALIZE begins — partial

* Modelled: names of arguments and assignments of `createCppClass`; running them is modelled with the rule of C++ that an argument hides the member of its name
* Proof: induction over the parameters; partial if no parameter is called `in_` and the name of another one; false for `x` and `in_x`: the member `in_x` has no value
* Negation proved: `C339_false`

### C340 The information about a component survives in the module made for it — partial

* Modelled: `inst2str` as a function that gives statements, and running them with the variables of a module; literals in three quotes are read character by character; numbers are integers
* Proof: induction over the value: which variables the lines for a value may assign; partial for texts without backslash, three quotes or a quote at the end, without `None` and lists in lists; false: `\n` of a printf becomes a new line, a text with a quote at its end makes a SyntaxError, `[5, [1, 2]]` becomes `[1, [1, 2]]`, an object in a list that has a list is overwritten (AttributeError), `None` is a NameError
* Negation proved: `C340_backslash_false`, `C340_quote_false`, `C340_nested_false`, `C340_object_false`, `C340_none_false`

### C341 The factory hands the values of the user to the constructor — partial

* Modelled: the text of `template` as binding of arguments, imports and call; SyntaxError is `valueError`
* Proof: induction over the parameters; false for a parameter called `component` (overwritten by the import in line 23), `lambda` or `name` (the module is not python)
* Negation proved: `C341_component_false`, `C341_lambda_false`, `C341_name_false`

### C342 Neutrons of a cylindrical moderator of the second target station start on its face — partial

* Modelled: INITIALIZE (lines 358-416) and the places of TRACE; file, energy and time are as in C215-C222 and not modelled again
* Proof: identities of sine and cosine; partial for `dmode=1` or a moderator that is not turned, from the angle of the chord; false: in line 458 the angles to both edges are exchanged, so with `dmode=0` a moderator turned by 30 degrees emits from beside its face
* Negation proved: `C342_edges_false`

### C343 Neutrons of a disk moderator of the second target station are spread evenly over the disk — proved

* Modelled: the same
* Proof: distance from the middle: the square is the random number times the square of the radius

### C344 The moderators of the second target station aim at the focusing rectangle — partial

* Modelled: the same
* Proof: partial as C219 for places with z = 0; false: the angles are taken for the distance `dist` although the neutron starts at z; from a point of a disk turned by 45 degrees every neutron misses the window; for the height see also C219
* Negation proved: `C344_tilt_false`

### C345 The weight of a neutron of the second target station is made of solid angle, area, power and frequency — partial

* Modelled: the same; the integral over the spectrum is C220
* Proof: solid angle as an integral; mean value theorem for arctan and for the sine of arctan: the factor is the solid angle up to (1+m^2)(1+n^2)^2, for windows within the slopes m and n; false for wide windows; `C345_scale` for the other factors
* Negation proved: `C345_false`

### C346 The settings of a pyre component are the parameters of the component of McStas — partial

* Modelled: the body of `class Inventory` as a namespace, with the functions that it calls looked up in it first; the settings of the base class are not modelled
* Proof: induction over the parameters: the module and the functions stay visible; partial for names other than `arg`, `pinv`, `exec`, `locals` and `_trait_str`; false: a setting `arg` is overwritten by the loop and deleted (line 67), after a setting `pinv` the class cannot be made; `C346_types` for types that are not in the table
* Negation proved: `C346_arg_false`, `C346_pinv_false`

### C347 The settings of a pyre component reach the constructor — partial

* Modelled: `_argumentsFromInventory` for both kinds of constructors
* Proof: from C346; `C347_arg`: a component with a parameter `arg` can never be started; false for a parameter `name`, whose value is replaced (line 127)
* Negation proved: `C347_name_false`

### C348 The list of components shows every component once under its category and supplier — proved

* Modelled: `list` with all four combinations of options, as the categories, components and suppliers that are printed; suppliers as in C276
* Proof: membership in the lists; names of suppliers differ and there are no types in categories that are not listed (`Proper`)

### C349 Components of McStas are listed if they have a file or were registered — partial

* Modelled: a library as entries of directories; the registry of C46 as a list; the order of `list(set(l))` is not modelled
* Proof: partial for the categories of the library; false for others: line 130 returns an empty list for a category that only the registry has, so that components of the user in it are not listed and cannot be found by type
* Negation proved: `C349_false`

### C350 The specifier that mcvine component info prints stands for the component it describes — partial

* Modelled: `info`, `_getSpecifier`, and the decoding of C45 followed by the finding of C276
* Proof: from C45 and C276: the specifier never stands for another component; false where several suppliers have the type (the specifier has neither category nor supplier, and is refused) and for arguments with a slash
* Negation proved: `C350_two_false`, `C350_slash_false`

### C351 The file of events of a detector system has the events of all steps — partial

* Modelled: files of text and of events as functions; the command `cat list | xargs -0 -d "\n" cat > "out"` with words divided as in C273, and with the rules that the result of a pipe is that of its last program and that xargs without input runs its command once; division by zero gives no number
* Proof: partial for directories without special characters; false: in `event_utils.py:52` the name of the list is not quoted, so with a space in the directory the first `cat` fails, the file of events becomes empty, and there is no exception (`C351_space_false`, for all such directories); `overwrite_datafiles=False` does not keep an older file (`C351_overwrite_false`)
* Negation proved: `C351_space_false`, `C351_overwrite_false`

### C352 Appending neutrons to a buffer adds exactly the asked-for neutrons — partial

* Modelled: vectors with elements and amount of memory, buffers by identity; arguments as nothing, python integers and other numbers; the exception for negative integers is written as `valueError`
* Proof: lists; partial for two different buffers, or enough memory, and regions within the buffer; false: appended to itself a full buffer is read after its memory was given back (`C352_self_false`, for every such buffer), and ends beyond the buffer are not checked (`C352_range_false`); `C352_numbers` for floats
* Negation proved: `C352_self_false`, `C352_range_false`

### C353 Neutrons of a buffer can be read and changed by their index — partial

* Modelled: `v_getitem`, `v_setitem`, and the python statement `b[i].probability = p` as reading a copy and changing it
* Proof: lists; false for indices beyond the end (undefined behaviour instead of `IndexError`) and for attributes: the buffer stays as it is; `C353_update` says how to do it
* Negation proved: `C353_range_false`, `C353_copy_false`

### C354 A buffer made from an array has the neutrons of the array — partial

* Modelled: arrays as memory around an address with the distance of rows; entries are doubles (other types are not modelled, the code does not look at the type), shapes are flat or with ten columns
* Proof: induction over rows; partial for arrays whose rows follow one another; false for views: only the address is used, so `a[::2]` gives the first half of the rows (`C354_view_false`); `C354_back` for the way to an array and back
* Negation proved: `C354_view_false`

### C355 The texts given to a component of McStas live as long as the component — proved

* Modelled: the pieces of text that `generate` puts into its template; the numbering of arguments by boost python is in the specification
* Proof: induction over the arguments; the policies are shown to be nested templates with balanced brackets

### C356 The data of a component of McStas can be read in python — partial

* Modelled: the same, with the members of C337
* Proof: lines of the joined text; partial for `double`, `int`, `float`, `char` and pointers to other things than characters and pointers; false for `char *`, pointers to pointers, `long`, `unsigned` and all other types: the binding is the same as without the member; `C356_only` for the other direction
* Negation proved: `C356_false`

### C357 Every component of an instrument has its setting in the geometer — partial

* Modelled: the body of the class that is made from the names, with the rule of python that names in the body come first; traits of pyre as settings with defaults
* Proof: induction over the names; partial for other names than `Register`, `transformer` and `dump`, and at least one component; false for each of these: no geometer, no transformer, a report that nobody asked for, no class at all (`class Inventory` without a body)
* Negation proved: `C357_register_false`, `C357_transformer_false`, `C357_dump_false`, `C357_empty_false`

### C358 A component is placed according to the setting of its own place — partial

* Modelled: the search by name and by aliases; components themselves are never registered
* Proof: lists; partial if the component has no other known name; false for a component whose own name is that of another place: the own name is tried first
* Negation proved: `C358_false`

### C359 "previous" stands for the component before — partial

* Modelled: `_findReference` for components (by identity) and for names
* Proof: lists without duplicates; false for names of places: they are looked for among the names of components, so a chain of references through such a place is an error (`C359_false`, for all sequences)
* Negation proved: `C359_false`

### C360 The post-processing finds the files of its own simulation — partial

* Modelled: paths as lists of names, files as lists of paths with contents; `glob` with its rules for `*`, `?`, sets and hidden files (names `.` and `..` are not modelled); the sum of C12
* Proof: patterns without special characters fit exactly the directories of the steps (C11: they are different); false for directories with brackets, which do not fit themselves (`C360_false`, for all steps) or fit the directory of another simulation (`C360_other_false`), and for a second simulation with fewer steps into the same directory (`C360_stale_false`)
* Negation proved: `C360_false`, `C360_other_false`, `C360_stale_false`

### C361 What a storage of neutrons writes is what its post-processing merges — partial

* Modelled: `process` of the storage with the directories that exist, and the merging up to the normalization, which is C08
* Proof: partial for single names; false for a path with a directory, which nobody makes (`C361_sub_false`, for all such paths), and for absolute paths: one file for all steps, which is replaced or refused, and not found by the post-processing (`C361_absolute_false`)
* Negation proved: `C361_sub_false`, `C361_absolute_false`

### C362 Asking for help starts no simulation — partial

* Modelled: components as trees with flags; of pyre, which is not in the repository, only two rules: the flag of a component is passed on to the application when its inventory is initialized (as the comment in `Instrument.py:315-319` says), and `execute` is not called with the flag set
* Proof: mutual induction over trees; partial for workers; false on the server: `_init` takes the flag back whatever the reason for it was (`C362_server_false`, for all applications)
* Negation proved: `C362_server_false`

### C363 The histogram of PSD_TEW_monitor has the channels of the monitor — partial

* Modelled: `get_histogram` with the rule of numpy for the number of elements of `arange`; the monitor of C315
* Proof: real arithmetic: the tenth of a channel gives exactly one boundary more than channels; partial for monitors with a height and a range; false for accepted monitors without (`C363_range_false`, the values without settings, and `C363_area_false`)
* Negation proved: `C363_range_false`, `C363_area_false`

### C364 Every component has its own directory of sources and its line for cmake — partial

* Modelled: the lines of `CMakeLists.txt` and the directories; a line is looked for as text anywhere in the file
* Proof: directories differ because the first underscore ends the category; a line is part of another only if their directories are equal (names without parentheses); false for categories with an underscore (`C364_false`) and for lines that are comments (`C364_comment_false`, for all directories)
* Negation proved: `C364_false`, `C364_comment_false`

### C365 Components that are new or changed get new sources, others are left alone — partial

* Modelled: the decision of `create_sources_for_components` with times as numbers; sources that are made give their directory the time of the run
* Proof: induction over the components; partial for wrapped components with a directory; false without one: a component that was wrapped elsewhere is never made again (`C365_false`, for all times)
* Negation proved: `C365_false`

### C366 The monochromatic source of an application has the energy that is set — partial

* Modelled: `_configure` and `_init` of the component, with the conversion of units; the source itself is C159
* Proof: real arithmetic with the constants of the code; the energy in the statement is written out; partial for energies that are not negative and velocities that are not zero; false otherwise: such settings are accepted and the velocity is not a number (`C366_false`, for all of them)
* Negation proved: `C366_false`

### C367 The dictionary of a registry has all settings of an application — partial

* Modelled: `onRegistry` on trees, with dictionaries as lists of entries; the registry itself belongs to pyre, which is not in the repository
* Proof: induction over the path; partial for properties not called `name` or `components`; false for these: an error (`C367_false`) or a name that is hidden (`C367_name_false`)
* Negation proved: `C367_false`, `C367_name_false`

### C368 A component of vitess gives the neutrons that its module writes — partial

* Modelled: `process` with the programs as a function from commands to exit codes and outputs; of python: `communicate` gives nothing for an output without a pipe, a quotient is no whole number, a loop over a dictionary gives keys; the conversion of neutrons is that of `Exchange.lean`
* Proof: cases; partial for what is refused; false for the rest: there is never a result (`C368_false`, for all modules), and parameters do not reach the module (`C368_args_false`, for all parameters)
* Negation proved: `C368_false`, `C368_args_false`

## Defects of the code found while proving

* C14 (Concurrent workers can share one fresh work directory): each worker checks the work directory after others may have created it: it raises, or with overwriting deletes the output of another worker
* C15 (Result cache never confuses different parameter values): `arg_str` joins the parameter names, the values are dropped, so different values share a cache entry
* C36 (Scattering kernels conserve energy and momentum): within 1e-4 (E(Q) kernel) or 1e-10 of the z axis the second axis is (1,0,0), not orthogonal to the direction of flight, so Q is missed (E_Q_Kernel.icc:185-196)
* C37 (Powder diffraction scattering does not depend on history): `m_d_phi = 0` in `scatter` (SimplePowderDiffractionKernel.cc:240-241) switches focusing off for all later neutrons once the acceptance covers the whole cone of one peak
* C39 (Binary search in a sorted table): `<=` in search.icc:16 makes the value of the last entry count as larger than all; with repeated entries the first is not found
* C43 (Phonon data files round trip): `Omega2.write` divides the number of branches by D and drops the remainder, so that the file cannot be read (Omega2.py:21,36); comments that are not ascii raise after the file was opened for writing (E.py:14-17), comments above 1024 characters are cut; densities of states that do not start at 0 are moved to 0 (DOS.py:27,44)
* C44 (Multiphonon spectra are normalised convolution powers): what lies beyond the axis is cut off and the rest scaled up; with the threefold axis of `sqe` this concerns four and more phonons (multiphonon.py:54-56, 159-177)
* C45 (Component facility names decode what was encoded): the supplier is not encoded (NeutronComponentFacility.py:147-150), an argument with a slash makes decoding fail with ValueError (line 164), a single empty argument is lost (lines 173-176)
* C46 (Registries behave like maps): `register` changes its tables one after the other (Registry.py:31-37): a module without `info` raises at the first request and is handed out at the second, one without `factory` stays in the list of types
* C49 (Momentum transfer of a reflection): `_q` of laz.py takes the rows of the reciprocal matrix instead of the columns (laz.py:137-139)
* C51 (Flushed neutrons are in the file): `Storage.flush` hands the neutrons to the Python file object but never flushes it, so the file can still be empty after flush
* C52 (Writing to a closed storage is reported): `write` after `close` buffers silently; the neutrons never reach the file
* C53 (Reading zero neutrons reads nothing): `read(0)` reads the whole rest of the file (`n or default` truthiness)
* C54 (A refused seek leaves the cursor alone): `seek` assigns the cursor before checking the range
* C55 (A wrapping read at the end of the file starts over): a wrapping read with the cursor exactly at the end of the file raises instead of starting over
* C56 (Library merge-and-normalize handles runs in which no neutron was stored): `merge_and_normalize` of the library raises ZeroDivisionError for an empty result
* C57 (Normalizing a detector event file is crash safe): `normalizeEventFile` overwrites the event file in place
* C58 (A neutron file with a torn last record can still be loaded): `readall`/`load` raise for a file with an incomplete last record although the complete records are readable
* C59 (The neutron count in the header is right): `dump` passes a flat array, so the header says 10 n
* C60 (The format check recognises neutron files): `checkformat` refers to the undefined name `f` and raises NameError for every file
* C61 (Writing neutrons leaves the array of the caller alone): `write` assigns `neutrons.shape = -1,` on the caller's array; a second write of the same array stores a wrong count
* C62 (Every node of a parallel run gets a share): with fewer neutrons than nodes the list of shares is shorter than the number of ranks and the others fail with IndexError
* C63 (A run of zero neutrons is accepted): zero neutrons give a buffer size or a divisor of zero and ZeroDivisionError in the application runner and the parallel script runner
* C64 (Keeping a result in the cache runs the command the user gave): the rebuilt command lists parameter names without values
* C65 (Small displacements between components add up correctly): displacements up to 1e-8 are skipped in every step, so that the errors of n steps add up to n*1e-8
* C66 (Angles can be recovered from the matrix of any orientation): within 1e-8 of gimbal lock the x angle is dropped and the self check then raises RuntimeError
* C67 (Re-registration of an element takes effect): the absolute positions computed before are kept in a cache that registration does not clear
* C68 (A snapshot of more neutrons than present is safe): `snapshot(n)` iterates over `begin .. begin+n` without checking the size
* C69 (Components of the same name are all simulated): the nodes are kept in a dictionary by component name, a component is overwritten by a later one of the same name
* C70 (Event area monitor assigns every hit to the pixel it hit): the column coordinate is not truncated before it is multiplied by the number of rows
* C71 (A batch without hits adds no events): `events` is only assigned when there are hits: a batch without hits writes the old events again, or fails if it is the first
* C72 (Monitors record only neutrons that reach them): the flight time may be negative: neutrons behind the monitor are moved back and counted
* C73 (Any detector hierarchy can be numbered): an empty container appends to the index shape but not to the layer names: the next container of the level raises IndexError
* C74 (A tube with any positive number of pixels can be built): the tube length is divided by the number of pixels minus one
* C75 (Bounding boxes of rotated shapes enclose them): the box of a rotated shape keeps the longest edge of the unrotated box instead of the rotated corners, too small by up to a factor sqrt 3
* C76 (A path through the interior of a block is reported to cross it): faces are taken without their edges, so a path through two edges has no intersections
* C77 (An object ahead is found): only the middle of the first two crossings is examined; two coinciding crossings (e.g. along the axis of a hollow cylinder) hide every object behind
* C78 (Propagation out of a shape is forward in time): the last of all intersections of the line is taken, also when it is behind the neutron
* C79 (Multiple scattering mode absorbs at the place of absorption): the absorbed part is handed to the kernel at the place and time of entry (HomogeneousNeutronScatterer.cc:249-251), so a detector tube in the multiple mode records every neutron on its surface
* C80 (A channel with zero weight is never chosen): `rand()/RAND_MAX` may be 1, then the last channel is chosen even with weight 0 and the probability becomes (sum)/0
* C81 (Attenuation in a composite accounts for where its constituents are): the start of the flight is converted to the frame of the constituent, the end point is not (CompositeNeutronScatterer_Impl.cc:178-202)
* C82 (A composite may be a constituent of a composite): `interact_path1` and `interactM_path1` lack a return statement; `calculate_attenuation` is not const and so does not override the virtual function, which returns 1
* C83 (The result of a stand-alone scatterer is determined by its inputs): `min_neutron_probability` is not initialised by the constructor of the implementation class
* C84 (The overlap check looks at the constituents where they are): the shapes are compared in their own frames, positions and orientations are ignored
* C85 (The overlap check notices nested shapes): only surface points of the first shape are tested against the second, so a shape strictly inside an earlier one is never noticed
* C86 (In the multiple scattering mode every constituent on the path takes part): the default number of loops in interactM_path1 is 1: after one constituent the neutron is moved to the surface of the composite
* C87 (The weight given to a kernel is the one used): `w or 1.` turns weight 0 into 1 (KernelComputationEngineRenderer.py:52)
* C88 (Mean factor applied by a composite kernel equals its scattering coefficient): with `average`, or with a kernel of total scattering, the coefficient is the mean or that of one kernel while scattering carries the sum
* C89 (Absorption coefficient of a composite kernel): always the mean (CompositeScatteringKernel.cc:137), although CompositeScatteringKernel.h:37 says only if average is set
* C90 (Coefficients of a rotated kernel belong to the frame of the kernel): the velocity is converted to the frame of the constituent for scattering but not for the coefficients
* C91 (Energy focusing stays in its window): if the window does not overlap the range of the kernel the weight is negative (no test for an empty range of E)
* C92 (A neutron that a kernel cannot scatter does not appear in the scattered beam): S(Q,E), focusing and S(Q) kernels return the neutron unchanged with full weight when the range is empty
* C93 (Expected weight of the E(Q) kernel): the weight is divided by the number of trials; the mean of 1/N is not the probability of success
* C94 (Expected weight of scattering kernels): neutrons below the energy range are counted with their full weight
* C95 (Change of variables from time of flight to energy): 2 Ef / tof is used instead of 2 Ef / (tof - t) (DGSSXResKernel.cc:108)
* C96 (Dispersion surface kernel: on the surface or untouched): the bail-out returns after the probability has been multiplied twice (E_vQ_Kernel.icc:203-225)
* C97 (Scattering coefficient in the weight belongs to the incident neutron): `scattering_coefficient(ev)` is called after `S(ev)` changed the event (KernelBase.h:46-60)
* C98 (Rotating a vector about an axis): a vector whose projection on the axis differs from its length by less than 1e-7 relative (angle below 4.5e-4 rad) is not rotated (utils.icc)
* C99 (Line width does not change the intensity of a powder peak): the shifted q may be out of reach, asin gives NaN and the neutron is lost; the weight of the others is not corrected
* C100 (Focusing of powder diffraction does not change the intensity): the weight is not multiplied by the covered part of the cone
* C104 (The last plane of a grid): `r >= axis.n` fails (1D) or is moved to the first plane (3D), where periodic data is assumed
* C106 (Any valid density of states is accepted): `_compute_sod` reads 20 elements of shorter arrays and ends the program by `throw;` if the start is not close to a parabola (LinearlyInterpolatedDOS.icc:119-148)
* C107 (The density of states is normalised): normalised with the plain sum instead of the integral of the interpolated curve (LinearlyInterpolatedDOS.icc:89)
* C109 (Debye-Waller factor from a density of states): for a density of states that starts above energy 0 the first point counts fully and the value extrapolated to energy 0 is added, which may be negative (DWFromDOS.icc:69-74)
* C110 (Incoherent elastic scattering is elastic and carries the Debye-Waller factor): within 1e-4 of the z axis the axes are not orthogonal, so the speed changes (IncoherentElastic.cc:152-163)
* C112 (Phonon scattering is in detailed balance): below one percent of the largest phonon energy gain and loss get the same thermal factor kT/w^2 (IncoherentInelastic.cc:262-267)
* C113 (Recoil energy uses the mass of the atom in atomic mass units): `k2E(Q)/m_Mass` is the recoil energy for masses in units of the neutron mass, 1.00866 amu (IncoherentInelastic.cc:259, 270); 0.9 percent too small
* C114 (Energy focusing only restricts the range of final energies): `Ei-Efmax<0` rejects every window that reaches above the initial energy, so energy gain and a window around the elastic line give no neutrons (IncoherentInelastic_EnergyFocusing.cc:94)
* C115 (Several kinds of atoms): sum of the cross sections over the mean mass (IncoherentInelastic.cc:121-129; the comment in line 257 gives the right sum)
* C117 (The one-phonon spectrum is normalised): the value at energy zero is twice the one extrapolated linearly (multiphonon.py:208-212), and gamma0 counts the extrapolated value once
* C119 (Multiphonon spectra exist and are not negative): linear extrapolation to energy zero gives a negative value for densities of states with a gap, in the spectrum and in gamma0, which can vanish
* C120 (Roots have the requested accuracy): the loop ends as soon as two successive guesses are close, although the bracket may still be long (rootfinding.cc:218-221); the last guess but one is returned
* C121 (No root is returned twice): neighbouring sub-intervals both report a root at their common end (rootfinding.cc:177-187)
* C124 (Directions without a solution count as such): the loop over directions draws again until a solution is found, and the weight does not account for that (CoherentInelastic_SingleXtal.cc:235-245)
* C125 (A neutron that cannot be scattered is not counted as scattered): after 100 directions without a solution the neutron is returned unchanged with its full weight (CoherentInelastic_SingleXtal.cc:246-253)
* C126 (All phonon branches take part in the scattering): branches that start at 1.5 times the energy of the neutron or higher are left out though they can be destroyed, and if none remains the program takes a remainder modulo zero (CoherentInelastic_SingleXtal.cc:222-235)
* C128 (The amplitudes of the atoms enter the structure factor): `Q.e` is divided by the length of the polarization vector of each atom (scattering_length.icc:42-43)
* C129 (The sign of scattering lengths is kept): `sqrt(xs*100/4/pi)` is always positive (BoostPythonBinding.py:98-105)
* C130 (Powder phonon scattering conserves energy and momentum): `continue` in a do-while loop goes to the test, with the energy of the round before or not yet set (CoherentInelastic_PolyXtal.cc:170-186)
* C131 (Powder phonon scattering counts the possible final energies): `if (E_i > omega)` uses the signed energy transfer E_i - E_f, so it is always true (CoherentInelastic_PolyXtal.cc:324-348)
* C132 (The weight of powder phonon scattering does not depend on the sampling range): the volume of momentum transfers that can be accepted is replaced by a fitted formula that contains the largest phonon energy (CoherentInelastic_PolyXtal.cc:213-225)
* C136 (No reflection near the Ewald sphere is lost): the loop stops at `tau > 2k/(1-5 delta)`, which knows only the spread of lattice spacings, though the cutoff of a reflection is made with the larger of it and the mosaic spread; for spreads above 1/5 the limit is negative (SingleCrystalDiffractionKernel.cc:166-190)
* C140 (Random directions towards a target are uniformly distributed over the cone): `rotate` leaves a vector as it is that is nearly along the axis (1 - cos < 1e-7), so the azimuth is not sampled: for a cone of less than 4.5e-4 rad all directions lie in one half plane (geometry.cc:58-59, utils.icc:25-28)
* C142 (The intensity of a broadened dispersion curve is right): failed rounds are repeated and the weight does not account for it (Broadened_E_Q_Kernel.icc:154-183), so the intensity is divided by the acceptance
* C143 (A broadened dispersion curve passes no neutrons unscattered): neutrons with less energy than `min(E-3W)` are returned with their full weight (Broadened_E_Q_Kernel.icc:142-146), and so are those for which the first 99 rounds fail, even if the last one succeeds (lines 180-190)
* C144 (Small angle scattering by spheres is elastic): in exactly forward direction, which `rand()/RAND_MAX` can give, the form factor is 0/0 (SpheresKernel.cc:91)
* C145 (Small angle scattering by spheres has the intensity of the form factor): the solid angle is divided by 4 pi although the factor in line 92 is already the cross section per steradian (SpheresKernel.cc:86, 92)
* C146 (The scattering coefficient of spheres is their total cross section): 3/2 phi drho^2 lambda^2 R is the limit for large spheres (SpheresKernel.cc:48-59)
* C147 (A listed component can be obtained): the loop over repositories does not look at the category, so a module of the same name in a later repository hides the component, and the request raises RuntimeError (RegistryBase.py:108-120)
* C148 (Histograms S(Q,E) round trip through idf files): the axes are taken by name but the array as it is stored, so a histogram with axes (energy, Q) is read with its data exchanged; errors are not stored (idf/__init__.py:43-61)
* C149 (Each reflection is counted once): only indexes that are not negative are tried for powders (calcpeaks.py:14)
* C150 (Reflections that are counted together are equivalent): indexes are multiplied by the matrices that act on positions instead of by the transposed ones (calcpeaks.py:95)
* C151 (The smallest spacing leaves out exactly the reflections with a smaller spacing): the loops are left at the first (h 0 0) or (0 k 0) with a small spacing, though (h k 0) can have a larger one (calcpeaks.py:23-29)
* C152 (Neutrons survive the way through an MCPL file): a neutron at rest gets the direction 0/0 (to_mcpl.cc:69-71); a file without neutrons makes `np.concatenate` fail (mcpl.py:41)
* C153 (Import from and export to MCPL keep the intensity): the export writes the weights unchanged, while the import multiplies by the number of neutrons by default (neutronstorage.py:105, mcpl.py:44-46)
* C154 (Import from MCPL keeps the polarisation): a polarisation of length 0 becomes spin numbers 0, 0 (mcpl.py:34-36), which are exported as polarisation along y
* C155 (Conversion between Vitess and mcvine describes the same neutron): the C++ converters copy positions, velocities and times without change of units and axes (mcvine2vitess.h:30-36); the directory is not built (legacycomponents/CMakeLists.txt:3)
* C156 (Commands that take a range of neutrons from a file): the default `None` of `--end` is compared or subtracted (neutronstorage.py:48,89): TypeError in every call without it
* C157 (The radial collimator stops exactly the neutrons that hit a blade): `arctan2` gives angles up to half a turn only, so parts of a collimator beyond are closed (RadialCollimator.py:28-36)
* C159 (The monochromatic source emits what was asked for): negative samples of the normal distribution give velocities that are not numbers (MonochromaticSource.py:71-77)
* C160 (Propagation of McStas components brings the neutron forward to the plane): without gravity a neutron beyond the plane flies back in time (propagators.h:75-85 has no test of the sign); with gravity `plane_intersect_Gfast` takes the root nearest to the straight flight (geometry.cc:574-615), so a neutron that falls back is absorbed, and one that is on the plane already is absorbed always
* C161 (Rotations of the McStas library are rotations): an axis of length 0 gives cos(phi) times the vector without notice (geometry.cc:269-304)
* C163 (Directions towards an angular window are uniform in the window): angles are drawn uniformly, so the directions are not uniform in the window though the solid angle returned is that of uniform directions; without window size the call is made with arguments that are not set
* C164 (Directions towards a rectangle have the right weight): for a target straight above or below the horizontal vector of the rectangle is 0/0
* C165 (Intersections with sphere, cylinder and box are the ends of the flight through the body): a flight parallel to the axis of the cylinder divides by 0; a flight through edges of a box hits two faces at once, more than two faces or none are counted and no intersection is found
* C167 (randnorm gives independent normally distributed numbers): the second number of a pair is kept in static variables and used after a new seed
* C168 (McStas monitors with one axis count the neutrons through their area in the right channel): `ABSORB` inside of `PROP_Z0` only leaves the propagator (tracing_macros.h:33), so a neutron that flies parallel to the monitor is counted with weight -1; a neutron that flies away from the monitor flies back in time and is counted
* C169 (McStas monitors with two axes count the neutrons through their area in the right pixel): as for C168, the pixel gets the weight -1
* C170 (McStas time of flight monitors count each neutron in the channel of its time): times out of range are counted in the first and the last channel; with `dt` instead of `tmax` the channels start at 0 while the axis of the output starts at `tmin` (TOF_monitor.comp); the logarithm of a time that is not positive is converted to an index
* C171 (McStas cylindrical monitors count neutrons where they leave the cylinder): `PSDcyl_monitor` has no offset in its indexes: half of the circle is counted outside of the array and the rest is moved by half of the axes (PSDcyl_monitor.comp:107-109); `TOF_cylPSD_monitor` counts the angle of 180 degrees in the next time channel
* C172 (The McStas monitor around all directions counts neutrons by longitude and latitude and leaves them unchanged): the row has an offset of one half more than it should (PSD_monitor_4PI.comp:134), so rows are moved by half their height and the uppermost row is wider
* C173 (The McStas I(Q,E) monitor counts neutrons by momentum and energy transfer within its angles): the angle out of plane has no sign (IQE_monitor.comp:84-89), so a range above the plane also takes the neutrons below
* C174 (A McStas slit lets exactly the neutrons through its opening pass): a neutron that flies away from the slit is moved back in time and passes (Slit.comp:60)
* C175 (A McStas beam stop absorbs exactly the neutrons that hit it and does not change the others): neutrons parallel to the stop and neutrons that have left it behind are absorbed (Beamstop.comp:71-78)
* C176 (The McStas linear collimator transmits the part of the neutrons that miss its blades): with blades in both directions the transmission is multiplied twice (Collimator_linear.comp:81, 89)
* C178 (A McStas disk chopper is open exactly when one of its slits is at the place of the neutron): the height is computed before the neutron is moved to the chopper (DiskChopper.comp:156-157); a delay changes its sign for negative omega (line 129); the first chopper subtracts the delay instead of adding it (line 171)
* C179 (The HYSPEC chopper is open exactly when one of its slits is at the place of the neutron): the number of slits is not used, only one opening in all time is (HYSPEC_Chopper_v.comp:76); on the diagonals the angle is not set (lines 67-72)
* C180 (A neutron in a McStas guide flies from mirror to mirror and leaves at the end): a neutron that moves across the guide is not absorbed by `PROP_Z0` (whose `ABSORB` only leaves the propagator) and is reflected for ever (Guide.comp:120, 127-215)
* C181 (The weight of a neutron in a McStas guide stays positive and does not grow): above Qc + 1/alpha the factor 1 - alpha (q - Qc) is negative and is not cut off as long as q < m Qc + 10 W, e.g. for m = 8 and the defaults (Guide.comp:204-206)
* C183 (The flat McStas monochromator scatters elastically by a multiple of its scattering vector): the loop that reduces the width does not end if the neutron is more than sqrt(37.5) mosaic widths away from the angle of Bragg, as the width does not matter then (Monochromator_flat.comp:196-207); for neutrons along the normal the probability is 0/0 and they are never reflected (lines 161-165)
* C184 (Table_Value interpolates linearly between the rows of a table): for tables with constant steps the index is computed with the number of rows instead of the number of intervals, and the values are taken from one row before the places: the value in the node 1 of (0,0), (1,10), (2,20) is 0 (read_table-lib.cc:673-680); for other tables the search ends before the last interval and the places of the interval before are used: (0,0), (1,10), (3,30) gives 50 at 2 (lines 664-671)
* C185 (Table_Rebin keeps the function of a table and makes its steps equal): the last row is never reached, as only ceil(range / step) rows are made (read_table-lib.cc:563, 566-569); tables in descending order count as not monotonic the second time, and then as tables with constant steps (lines 870-887), and are returned unchanged
* C186 (The units of McStas components agree with those of the other components): `K2V` is larger than hbar / m by 1.5e-4: energies of neutrons made for a wave vector or wave length are too large by 3e-4 (phys_constants.h:25)
* C187 (Source_simple emits neutrons from its area through its target with the right spectrum and weight): the solid angle is that seen from the center of the source (Source_simple.comp:107-114); gaussian wave lengths lack their mean `Lambda0` (line 127); as `E0` has a default, the interval of wave lengths is not tested and neutrons may fly backwards (lines 80-82)
* C188 (Source_div emits neutrons with the given divergences and spectrum): parameters with |dE| >= E0 and dLambda > Lambda0 = 0 are accepted and end the program at the first neutron (Source_div.comp:76-78, 104-107); angles above 90 degrees are folded to the forward direction (lines 118-124)
* C190 (Source_Maxwell_3 emits the sum of three Maxwell spectra): an interval with l_low > l_high is accepted and gives negative weights (Source_Maxwell_3.comp:76-81); the solid angle is that seen from the center (lines 99-100, 119)
* C194 (Different seeds, nodes and runs have different random numbers): the seed of a node is the time in microseconds modulo 65536 plus its rank (rng_seed.py:19-28): a node that starts one microsecond after the node with the next rank has the same random numbers; 65537 runs cannot have different ones
* C195 (The old generator is seeded with the multiplicative congruential sequence): the seed 2^31 - 1 gives zeros in the whole state, which the replacement of the seed 0 is to avoid (random_numbers.cc:110-122)
* C196 (V_sample: single scattering with the true way in the material): a neutron that has left the sample behind and will never meet it is absorbed (V_sample.comp:202)
* C197 (V_sample: scattered and transmitted neutrons together carry the weight of the beam): `frac` above 1 is accepted and divides the weight of all neutrons (V_sample.comp:217, 287)
* C198 (V_sample scatters to the target): the code for `target_index` is commented out (V_sample.comp:141-150): with any index the neutrons are scattered around the z axis
* C200 (Sans_spheres: the form factor is the Fourier transform of a sphere): for a neutron that is not deflected the formula is 0/0 (Sans_spheres.comp:113)
* C201 (Sans_spheres: place, direction and weight of scattered neutrons): the cross section, documented in 1/m, is multiplied by 100 (Sans_spheres.comp:74): absorption is 100 times too strong
* C203 (The angles of a chopper path describe the part of the circle that is flown): the angles are in [0, 2 pi] without unwrapping (Vertical_T0.comp:61-67, 142): a path across the angle 0 is replaced by the other part of the circle
* C204 (The path is tested from the entrance plane to the exit plane of the slot): the angle of the exit plane is computed with splen/2 instead of splen (Vertical_T0.comp:149, Fermi_chop2.comp:189): the last quarter of the slot is not tested
* C205 (The path is tested at points of the path): the inner loop runs one step too far in each turn (Vertical_T0.comp:164-167): 6 points behind the end of the path are tested
* C206 (The loop of the T0 chopper ends): for a path that is straight in the turning frame, e.g. a chopper at rest, no angle is a number and the loop never ends (Vertical_T0.comp:157-183)
* C207 (The walls of the T0 slot are planes): the slope of the wall is (w2 - w1)/(nrad/2) with the radius of the path instead of the length of the slot (Vertical_T0.comp:91): whether a point is in the slot depends on the path
* C208 (The blades of the Fermi chopper absorb): the thickness of the blades is not tested (Fermi_chop2.comp:109-121): the upper limit of a channel is compared with itself rounded up, which never fails, so that blades are transparent
* C209 (A neutron that passes the Fermi chopper stays in one of its channels): channels with number 0 or less are accepted (Fermi_chop2.comp:116-121, 211): a neutron beside the package passes
* C210 (The Fermi chopper works for every radius of its blades): for radius 0 the offset is not a number (Fermi_chop2.comp:141), the intersection fails and every neutron passes unchanged, although `blades` has a case for straight blades
* C211 (The choppers extend from ymin to ymax): the cylinder has the height ymax - ymin but is centred at y = 0 (Vertical_T0.comp:118, Fermi_chop2.comp:157)
* C212 (The spectrum of the SNS sources is the polygon through the table): above the table the last line is continued, below it a value before the array is read (sns_source-lib.cc:135-152): the loop never leaves the index behind the table, so that the message is never printed
* C213 (The distributions of the SNS sources are interpolated by quadratic functions): below the second point, and at the first one, a value before the array is read; the interpolation of an increasing distribution exceeds 1 and falls (sns_source-lib.cc:168-186)
* C214 (The integration of the SNS sources converges to the integral): the loop ends as soon as two successive approximations agree (sns_source-lib.cc:212-228): for a spectrum with two peaks the result is a third of the integral
* C216 (The distribution of the emission times of the SNS sources is that of the pulse): the part of the area between the lower limit and the first point is overwritten (sns_source-lib.cc:296-327); with a first time above the lower limit a value before the array is read
* C217 (The SNS sources find an energy for every random number): the search starts at the point behind Emin: for energies between these two it never ends (sns_source-lib.cc:233-255, SNS_source_r1.comp:182)
* C218 (The file of an SNS moderator is read as it is): the loop uses one line more than the file has (sns_source-lib.cc:84-116): memory that was never written becomes the first emission time, and the number of times is one too large
* C219 (The SNS sources aim at the focusing rectangle): the two angles are chosen independently and used as spherical angles (SNS_source_r1.comp:168-174, 205-207): neutrons to the corners miss the rectangle
* C221 (The emission time of an SNS source belongs to the energy): for energies up to the first one of the table, this one included, values before the arrays are read (SNS_source_r1.comp:185-195)
* C222 (The SNS sources use the whole spectrum of the file): if the intensity never becomes 0 the last two lines of the file are ignored (sns_source-lib.cc:49-60)
* C223 (The weights of SNS_source_2020 are proportional to the area of the source): without a radius and with a side 0 the area is not initialised (SNS_source_2020.comp:149-155)
* C226 (A shape is the same body in both coordinate systems): rotated and translated shapes end in NotImplementedError in the coordinate system of the instrument scientist (InstrumentScientistCSAdaptor...py:54-58)
* C229 (Composites can be changed and can contain an element more than once): the shape is remembered on the first query (CompositeScatterer.py:63-69), so elements added later are not in it; the geometer is a dictionary (mcni/Geometer.py:24), so an element added twice is in its last place only; copies have no method shape (ScattererCopy.py)
* C230 (Zero is a value like others for limits and weights): `or` replaces 0 by the default (CompositeScatterer.py:45-46, KernelComputationEngineRenderer.py:52): no multiple scattering becomes 5 loops, the weight 0 of a kernel becomes 1
* C231 (Detector tubes with pixels can be built in every direction): the rotated shape is computed but the unrotated cylinder is used (detector/__init__.py:76-88): long tubes in other directions than upwards, the default direction z in the default coordinate system included, fail the check
* C232 (Copies of scatterers stand for what they copy): there is no handler onHomogeneousScattererCopy (ScattererComputationEngineRenderer.py:92-101)
* C235 (Given coefficients are used, otherwise those of the sample): a coefficient given alone is replaced by that of the sample without a message (ComputationEngineRendererExtension.py:184-197); the parsers of SQkernel, SQEkernel and SvQkernel do not read theirs (kernelxml/parser/SQkernel.py:14-18)
* C236 (Containers of kernels keep kernels, weights and orientations): a container with an orientation is refused with TypeError (kernelxml/parser/KernelContainer.py:42-48, CompositeKernel.py:22); the orientation of a kernel that is in no container has no effect (KernelComputationEngineRenderer.py:65-90)
* C237 (The attribute average is understood or refused): every text that is not one of the ways to say yes means no (kernelxml/parser/KernelContainer.py:45), e.g. enabled
* C238 (A kernel written to a file can be read back): the range of Q is written with the value of the range of energies (kernelxml/Renderer.py:43-46); containers are written with a tag whose parser takes only containers (hsxml/Renderer.py:30-40, hsxml/parser/CompositeKernel.py:46-48); six classes have no handler; weights, orientations and coefficients are not written; texts are not escaped (kernelxml/Renderer.py:91); all tables go to the same file (line 141)
* C239 (Auto-normalization makes the mean of I*Q equal to 1): a norm between 0.8 and 1.2 is left as it is (kernelxml/parser/GridSQE.py:58-61)
* C240 (A table becomes the C++ grid with the same bins): only the first bin, the ends and the number of bins are compared (bindings/BoostPythonBinding.py:133-141): unequal bins are accepted if the number of steps happens to be right
* C242 (The options of a scatterer file reach C++ and survive writing): number of loops, minimal probability and packing factor are not written (hsxml/Renderer.py:43-57)
* C244 (Comments of a laz or lau file can be added freely): two comments that begin with the same word end in RuntimeError (laz.py:43-44); the newline is removed with a comment after numbers (laz.py:26, 94-95), so the next row is appended and its reflection lost without a message; a comment at the end without newline is read as data
* C248 (A density of states file is read with its unit, whatever comments it has): a line with nothing but a hash ends in IndexError (read_dos.py:58-59); the unit is searched in the first word of a comment only, so `# energy (meV)` ends in NotImplementedError
* C249 (MPI.barrier is a barrier): node 0 only sends and the others only receive (ParallelComponent.py:106-110): node 0 goes on while no other node has arrived; with three nodes node 1 leaves before node 2 has entered even if send blocks
* C251 (Calls of barrier are matched): tags are numbers of calls of the process: a node that skipped a barrier takes the old message for the new one and leaves before node 0 enters
* C252 (The events of all nodes are there when they are merged): barrier does not wait for the others (C249), so the merged file lacks the events of nodes that are slower; the sleep of five seconds (EventAreaMonitor.py:119) bounds nothing
* C253 (The check of the output directory looks at an earlier run): the nodes are released before node 0 looks (Instrument.py:226-231): another node may have made outputdir/rank1-step0, and node 0 stops with "output directory exists"
* C255 (NDMonitor measures the expressions of the user): the unit is looked up unconditionally (_ndmonitor.py:234), so the documented ndmonitor("x", "inverseX", inverseX="1/x") ends in KeyError; an expression for x, y, z, vx, vy, vz or t is ignored but its unit is used (_ndmonitor.py:230-234)
* C256 (A packet size is written once and read back): setting the same size again writes the digits a second time (PacketSizeStore.py:48-51), so 10 is read as 1010 later; an existing file is opened for reading, so setting the same size fails there
* C257 (The analytic reflectivity is that of a supermirror): m = 0 with W = 0 and alpha = 0 reflects with R0 (ref-lib.cc:67-76 replaces m before it is tested in line 80); W = 0 gives no reflection at all (ref-lib.cc:78-83); alpha (|q| - Qc) > 1 gives a negative reflectivity, e.g. m = 10 (ref-lib.cc:93)
* C259 (Filter_gen applies the table to the quantity that the options name): the mode add has no branch of its own and sets the weight (Filter_gen.comp:205-206); the word wavector of the documentation is not known, and the copy in lower case is not used (Filter_gen.comp:107-127): then every neutron passes
* C260 (Collimator_radial weights neutrons by the channel they fly to): neutrons above or below are absorbed although the documentation transmits them (Collimator_radial.comp:153-159); the ideal collimator has no angular range (Collimator_radial.comp:170-171); a divergence overwrites the number of channels after their widths were computed (Collimator_radial.comp:114-120)
* C263 (Bender transports forward flying neutrons only): only atan(vx/vz) is used (Bender.comp:182), so the sign of vz is lost
* C264 (Guide_gravity follows every reflection in the channel of the neutron): flights of less than 1e-10 seconds are ignored (Guide_gravity.comp:306, 322): a neutron that meets an absorbing wall 1e-11 s behind the entrance flies through it and leaves beside the guide with its full weight
* C267 (The phase of Guide_gravity as a chopper matters only modulo a turn): fmod keeps the sign, but only angles between 90 and 270 degrees are reduced (Guide_gravity.comp:427-430): a phase of -180 degrees absorbs every neutron of the axis, +180 passes them
* C268 (Guide_gravity makes neutrons fall): G is described as a norm, but is used as the component along y (Guide_gravity.comp:393-395): 9.8 accelerates upwards, and a tilted guide has gravity along its own axis
* C269 (Instruments of McStas are read as they are written): an expression in parentheses among the parameters makes the component vanish and another one appear that has the name of the parameter and no type (McStasInstrumentParser.py:94-96, 154-163); values with a comma are cut and values with an equal sign are lost without a message (lines 206-213); AT and ROTATED on one line give a text as coordinate and lose the rotation (line 98); AT without a blank before the parenthesis is lost (lines 257-262)
* C270 (Comments in instruments of McStas do not matter): only /* */ is removed: a component behind // is converted (McStasInstrumentParser.py:91, 372-376)
* C271 (The converted script places components as the instrument file says): the reference of the position is also used for the orientation (convertinstrument.py:88-92); PREVIOUS becomes a variable that does not exist (NameError); a position that could not be read becomes the origin (Instrument.py:68, 80)
* C272 (The configuration of a converted instrument keeps what is no expression): eval is applied to names, types and references too, with the functions of python in its environment (pml.py:183-186): a component named filter loses its name
* C273 (Parallel processes get the arguments of the user unchanged): a quotation mark in a value ends the quotes of the command, arguments without = are not quoted (MPILauncherBase.py:80-88), the serial launcher quotes nothing (LauncherSerial.py:56)
* C275 (Working in another directory leaves the working directory as it was): samplecomponent has no finally: after an exception in the sample the program stays in the directory of the sample (sample/__init__.py:29-40)
* C276 (A component is found if exactly one supplier has it): if category and supplier are given nothing is checked (_find_component.py:16-17)
* C277 (ESS_moderator_short emits the documented pulse): `branchframe = 0` is accepted, but then the pulse itself is never emitted (`C277_frame_false`); the times sampled are between -tau log(1 + 1e-12) and 27.6 tau, as the statement says
* C278 (ESS_moderator_long emits the documented pulse): the tail of the first spectrum lacks the correction for the shape of the pulse (only its comment is left, line 189), so that with the default parameters its weight is too large (`C278_first_false`); in the tail of the second spectrum the correction is divided by `n` instead of `n2` (line 204, `C278_second_false`)
* C279 (Monochromator_curved reflects from the slab that the neutron meets): the slab is chosen by where the plane x = 0 is met: a neutron passes an opaque slab unchanged if that is in the cell of the neighbour (`C279_neighbour_false`), and a neutron that is behind the turned slab already is moved back in time (`C279_time_false`); a radius of curvature smaller than the crystal is accepted and gives numbers that are not defined (`C279_radius_false`); neutrons along the normal of a slab are never reflected (`C279_normal_false`)
* C280 (HYSPEC_Guide_curved guides neutrons along a polygon around a circle): the neutron is left in the frame of the last piece, shifted along z: a neutron that flies straight through without touching a mirror is returned at another place and with another direction (`C280_frame_false`; the code that turns back is a comment); without a gap between the pieces neutrons are moved back in time to the next entrance (`C280_time_false`)
* C281 (Guide_wavy reflects from mirrors with waviness): if the tilt is larger than the angle of incidence the neutron is mirrored into the wall (the sign of the product with the normal is dropped by `fabs`) and reflected again at the same place, with the reflectivity twice (`C281_behind_false`)
* C282 (The parameters of a McStas component are read as they are declared): a comma in quotes separates parameters, a default with an equal sign in quotes is lost (McStasComponentParser.py:343, 372-375; `C282_quoted_false`); comments // are not removed, and one of them inside a list makes the whole list empty without a message (lines 306, 351-352; `C282_comment_false`)
* C283 (The generated component has the parameters and defaults of the McStas component): a default that is an expression becomes 0 without a message (ComponentInfo.py:95-98), as freq=50.0/3.0 in sources/original/ESS_moderator_long.comp (`C283_expr_false`)
* C284 (The sections of a McStas component are found and SHARE is divided completely): a section SHARE on one line is dropped without a message (__init__.py:66; `C284_single_false`)
* C285 (The slits of FermiChopper turn with the chopper and have the given curvature): for curvature 0 the member C_slit is never set (FermiChopper.comp:282, 347-352; `C285_memory_false`); with a curvature each wall is two arcs with a corner in the middle (lines 200-206; `C285_arc_false`)
* C286 (FermiChopper uses the geometry that is given): if the slits do not fit, floor(radius/w) of them are left although twice as many fit (lines 323-324; `C286_slits_false`)
* C288 (FermiChopper lets neutrons pass that stay in a slit): the path is compared with the slit at three times only (lines 503-540), one of which is compared with an interval it does not belong to (line 529), so neutrons cross blades (`C288_blades_false`); with an odd number of slits the middle one is divided by a wall (floor(x/w), lines 503-507; `C288_single_false`)
* C289 (The walls of FermiChopper are mirrors): the velocity of the wall is ignored (lines 581-610; `C289_moving_false`); after a reflection the neutron is taken to be in the slit on the other side (n1 = n3, line 612), so with perfect mirrors neutrons are absorbed (`C289_lost_false`)
* C290 (The histogram of a McStas monitor has the counts at the coordinates they belong to): PSD_monitor.py:34-35 and IQE_monitor.py:59-62 use the lower edges of the bins as coordinates: half a bin off (`C290_psd_false`); PSD_monitor_4PI.py:30 gives azimuths from 0 to 360 for channels that run from -180 to 180: a neutron straight ahead is shown at 180 degrees (`C290_sphere_false`)
* C291 (The histogram of a monitor can be made whatever the rounding): the stop of the axis is an exact multiple of the step in L_monitor.py:23, PSD_monitor.py:34-35, IQE_monitor.py:59-62 and PSD_monitor_4PI.py:30-33, so rounding decides: wavelengths from 1 to 4 in 10 channels give 11 coordinates, and no histogram (`C291_wavelength_false`, `C291_psd_false` with 49 columns, `C291_iqe_false`, `C291_sphere_false` with 161 columns)
* C292 (A McStas component has the parameters that were set last): values given at construction are also put into the `__dict__` (base.py:11-12), where assignments do not reach them: comp.filename = "b.dat" changes the file of the C++ part, reads as before, and the histogram goes to the old file (`C292_read_false`); restore_neutron=True given at construction cannot be switched off before the first round (`C292_restore_false`); __getattr__ recurs without end on an object made without __init__ (`C292_blank_false`)
* C293 (Each round of a monitor writes the data of this round): two monitors with files that differ only by the extension write the same histogram (monitors/base.py:29-31; `C293_names_false`)
* C294 (The I(Q,E) monitor is normalized by the coverage of its channels): the normalization is computed once and kept when parameters change (IQE_monitor.py:18-23; `C294_kept_false`)
* C296 (A density of states has one energy for each value whatever the rounding): the end of the extended axis in multiphonon.py:55-56 is an exact multiple of the step: for energies 0, 2.3, ... of five points there are sixteen instead of fifteen (`C296_more_false`); the extra point only is a zero more
* C297 (Smoothing keeps the place of what is smoothed): the slice y[(window_len//2-1):-(window_len//2)-1] (utils.py:142) is centred one point too early: every smoothed density of states is moved by one step to higher energy (`C297_false`)
* C298 (The density of states used in kernels is normalised and starts with a parabola): the largest energy of data with fewer than 500 points is lost (utils.py:26; `C298_end_false`)
* C299 (A density of states that is prepared is accepted by C++ and the data of the user stay as they are): the fit and the normalisation are done in place: a histogram with 500 points or more is overwritten by making a kernel from it (utils.py:37, 69; `C299_caller_false`)
* C302 (The pixel of the resolution calculation does not make weight): a neutron that leaves before the time asked for gets the weight numeric_limits<float>::epsilon whatever its own weight was, also 0 (DGSSXResPixel.cc:75-83; `C302_undetected_false`); the weight of detection at one time is a density and may be larger than 1 (`C302_gain_false`)
* C303 (The mean weight of Source_gen is the flux of its Maxwell spectra): the second and third spectrum are ignored if the first temperature is 0, documented as none (Source_gen.comp:518; `C303_second_false`)
* C304 (The wave lengths of Source_gen are those asked for): Lambda0 is set to 0 in line 205, so that a mean wave length with a spread ends the program (`C304_mean_false`), and without a spread all neutrons are absorbed (`C304_single_false`); limits of the energy in the wrong order are accepted and all neutrons absorbed
* C305 (The neutrons of Source_gen start in the source and fly to the target): with distance 0, when the size of the target is a divergence, the z component of the direction is 0 for every neutron (lines 490-505; `C305_divergence_false`); the direction does not take into account the position along a source with a length (`C305_length_false`); if the radius is given as well as height and width, the points are in the rectangle and the weight is that of the disk (lines 399, 473; `C305_area_false`); the time is not set
* C306 (phi1 is the Debye function of order one): the series is cut after 34 terms, which are not enough for temperatures far above the Debye temperature: more than two percent too large for T = 30 TD (vogel.py:12; `C306_high_false`); for T = 0 there is a ZeroDivisionError (`C306_zero_false`)
* C307 (phi3 is the Debye function of order three): the same (vogel.py:20; `C307_high_false`)
* C308 (The factor B of an element is that of the Debye model): the Debye temperature is looked up by the name with digits and signs although the mass is not: iron-57 gets 1000 K instead of 470 K, with a warning (atomic_scattering.py:35, 42; `C308_isotope_false`); T = 0 raises an exception (`C308_zero_false`)
* C310 (The time in the short pulse mode is found): SNS_source4 starts the search with the unnormalised value at the end of the range (SNS_source4.comp:289): with a window of time that holds 8 percent of the pulse and the random number 0.9999 the search runs away and the program aborts (`C310_abort_false`)
* C312 (The time in the long pulse mode is found): in SNS_source4 the delay is added twice (line 627; `C312_delay_false`), a term of `intint_ikecar` has the wrong sign (line 454; `C312_sign_false`), the term b/a/a(1+2l+3l^2) has the wrong sign and in `CImin` (tt-T) stands for (T-tt) (line 566)
* C313 (The way to draw the energy does not change the intensity): SNS_source4 gives the mean of the spectrum over the range and not the number of neutrons promised (lines 776-796; `C313_units_false`); in SNS_source_analytic E0 has no value when the loop of `CItot` begins, and the first value of the spectrum is taken at an energy in meV (lines 216-220; `C313_table_false`); other values of sample_E go on without values in SNS_source4
* C314 (The weights give the number of neutrons in the window of time): in SNS_source4 times from the distribution have the weight 1 whatever part of the pulse the window holds (line 814; `C314_weight_false`; also the documentation of sample_t exchanges 0 and 1); in the short pulse mode of SNS_source_analytic the length of the range is counted from tinmin (line 1019), so that times are beyond the window (`C314_window_false`) and the number of neutrons is wrong (`C314_number_false`)
* C315 (The position and energy monitor counts each neutron in the right cell): the time of flight is taken before the flight to the monitor (line 156; `C315_time_false`); a neutron that starts inside of the 0.1 mm of the monitor, e.g. on its middle plane behind another monitor, is absorbed and not counted (line 166; `C315_start_false`); a height of 0 is accepted (line 96; `C315_area_false`)
* C316 (The table of the monitor is in the units and channels it says): without an upper limit the lower limit is ignored (lines 127-131; `C316_axis_false`)
* C317 (The errors of the table are the statistical errors): `mcget_run_num` is the constant 1 (misc_macros.h:31): the error of every cell is 0 (`C317_zero_false`) and that of the total is the root of a negative number (`C317_total_false`)
* C319 (Focusing the cones changes only the statistics): the member d_phi is set to 0 when a cone lies within the opening (line 590): this and all neutrons behind it are no longer focused (`C319_history_false`)
* C320 (The cross sections of the powder are those of its lines): the sum my_s_v2_sum is over all lines, also those with q > 2k (lines 474, 546): below the edge neutrons are attenuated by lines that cannot scatter them (`C320_edge_false`)
* C321 (The weights of the powder sample give single scattering): the way before the scattering is speed times time and includes the hollow (line 557; `C321_hollow_false`); half of the points are put on the near part even if that has no length: a neutron that starts in the hollow is scattered in the hollow (lines 540-544; `C321_start_false`); without lines the neutrons chosen for them go on with their full weight, 1.9 times as many come out as went in with the defaults (line 572; `C321_nolines_false`)
* C322 (The table of lines is read as it is written): the multiplicity of the last line is compared with what is behind the list (line 351; `C322_memory_false`); only the first line of the table can be recognised as repeated, since the counters are not reset for other ones, and a last line that is not repeated is set to 1 instead of a copy (lines 348-360; `C322_groups_false`)
* C323 (The crystal has the cell that is asked for): a left-handed cell gets a reciprocal lattice of the wrong sign (`C323_hand_false`); angles in the header of a table turn the edges of the parameters into their standard orientation (`C323_orient_false`); if one edge is missing the default overwrites others (`C323_default_false`)
* C324 (The spread of a reflection is that of the mosaic blocks): the widths are documented as RMS and used as full widths at half maximum (lines 86-93, 464, 477, 489; `C324_rms_false`); a row 0 0 0 gives something that is not a number (`C324_zero_false`)
* C325 (Transmission and multiple scattering have the right probabilities): with p_transmit = 0 the transmitted neutrons are lost (lines 819-836; `C325_zero_false`); with order = 1 a neutron leaves from the point of scattering without attenuation on the way out (line 903; `C325_order_false`)
* C326 (Diffraction by the crystal is elastic and its strength is that of the table): K2V and V2K are not inverse to each other, so that the speed changes in each diffraction (`C326_energy_false`); in the powder mode the outgoing velocity does not depend on the incoming direction (lines 702-707; `C326_powder_false`); a table that is not sorted by length is cut at the first long vector (line 726; `C326_sorted_false`)
* C329 (The segments of a file are those of the guide, and the guide is bent as asked for): `feof` is only true after a last line with an end has been followed by another attempt to read, and the count is reduced by one in any case: a last line without an end is lost (lines 247-257; `C329_end_false`); the arrays have segno entries whatever the file holds (lines 139-150; `C329_room_false`); the angle between segments is l/curvature/segno also if the file has another number of segments (line 466; `C329_bend_false`)
* C330 (Neutrons fly through the segments by straight flights and reflections): the velocity is turned where the neutron is behind its last reflection, not at the end of the segment (lines 610-621): in any curved guide neutrons that touch no wall are stopped (`C330_curve_false`)
* C331 (The application that is started gets the arguments of the user): 
* C332 (Post-processing uses the number of nodes the user asked for): 
* C333 (Post-processing scripts are run behind a successful simulation, and nothing is deleted before they are done): 
* C334 (Every component of the list becomes a facility of the instrument): 
* C336 (A report without differences means equal settings): 
* C337 (The variables of DECLARE become members of the type that C gives them): 
* C338 (The output parameters of a component are public members): 
* C339 (The parameters of a component have the values given to the constructor before INITIALIZE begins): 
* C340 (The information about a component survives in the module made for it): 
* C341 (The factory hands the values of the user to the constructor): 
* C342 (Neutrons of a cylindrical moderator of the second target station start on its face): 
* C344 (The moderators of the second target station aim at the focusing rectangle): 
* C345 (The weight of a neutron of the second target station is made of solid angle, area, power and frequency): 
* C346 (The settings of a pyre component are the parameters of the component of McStas): 
* C347 (The settings of a pyre component reach the constructor): 
* C349 (Components of McStas are listed if they have a file or were registered): 
* C350 (The specifier that mcvine component info prints stands for the component it describes): 
* C351 (The file of events of a detector system has the events of all steps): 
* C352 (Appending neutrons to a buffer adds exactly the asked-for neutrons): 
* C353 (Neutrons of a buffer can be read and changed by their index): 
* C354 (A buffer made from an array has the neutrons of the array): 
* C356 (The data of a component of McStas can be read in python): 
* C357 (Every component of an instrument has its setting in the geometer): 
* C358 (A component is placed according to the setting of its own place): 
* C359 ("previous" stands for the component before): 
* C360 (The post-processing finds the files of its own simulation): 
* C361 (What a storage of neutrons writes is what its post-processing merges): 
* C362 (Asking for help starts no simulation): 
* C363 (The histogram of PSD_TEW_monitor has the channels of the monitor): 
* C364 (Every component has its own directory of sources and its line for cmake): 
* C365 (Components that are new or changed get new sources, others are left alone): 
* C366 (The monochromatic source of an application has the energy that is set): 
* C367 (The dictionary of a registry has all settings of an application): 
* C368 (A component of vitess gives the neutrons that its module writes): 
