{"id": "C01", "title": "Buffered neutron writer is a faithful log", "statement": "A storage opened for writing and then driven by any sequence of write and flush calls and finally closed leaves a file whose neutron records are exactly the concatenation, in call order, of all neutrons passed to write; at any earlier moment the file holds a prefix of that concatenation and fewer than buffersize neutrons are missing from it; write on a storage opened for reading fails and changes nothing.", "quantifier": "every buffer size, every initial file content (append mode), every finite sequence of write/flush calls with batches of any length, and every crash point between calls", "why_tests_cant": "The loss window and the ordering depend on how batch sizes interleave with the buffer threshold; the set of call histories is unbounded and a test samples only a few batch sizes.", "anchors": ["packages/mcni/python/mcni/neutron_storage/Storage.py: Storage.__init__, write, flush, close, _dump, _write_neutrons", "packages/mcni/python/mcni/neutron_storage/idf_usenumpy.py: append"]}
{"id": "C02", "title": "Cursor reads walk the file cyclically", "statement": "On a storage with N>0 neutrons opened for reading, with the cursor at p<N, read(n) with n>0 and wrapping returns exactly n neutrons, the k-th being record (p+k) mod N, and leaves the cursor at (p+n) mod N; consequently splitting one read into any sequence of smaller reads delivers the same neutrons. Without wrapping it returns records p..min(p+n,N)-1.", "quantifier": "every N>0, every file content, every reachable cursor and every finite sequence of positive read sizes, with or without wrapping", "why_tests_cant": "Wrapping several times, landing exactly on the end of file are corner cases of an unbounded family of (N, p, n) triples; agreement of split and joint reads is a statement over all splittings.", "anchors": ["packages/mcni/python/mcni/neutron_storage/Storage.py: Storage.read, seek, tell", "packages/mcni/python/mcni/neutron_storage/idf_usenumpy.py: read, count"]}
{"id": "C03", "title": "seek/tell", "statement": "On a storage with N>0 neutrons opened for reading, seek(offset, whence, wrap=True) followed by tell gives (base+offset) mod N, with base 0, the current cursor or N, a value always inside [0,N); with wrap=False an in-range target is stored unchanged and an out-of-range target raises.", "quantifier": "every N>0, cursor, integer offset (negative too), whence and wrap flag", "why_tests_cant": "Negative offsets and multiple wraps form an infinite input space.", "anchors": ["packages/mcni/python/mcni/neutron_storage/Storage.py: Storage.seek, tell"]}
{"id": "C04", "title": "idf/Neutron byte format round trip and count", "statement": "Writing n neutrons to an idf/Neutron file and reading it back yields the same neutrons in the same order, the reported count is n and the file size is header + 80 n bytes; appending m more yields all n+m; reading any window [start,start+k) inside the file yields exactly those records; a truncated trailing record left by a crash never changes the records before it.", "quantifier": "every list of 10-double neutrons (doubles as 8-byte words), every window and every number of trailing bytes below one record", "why_tests_cant": "Byte-offset arithmetic must be right for every file length and window; crash truncation is a quantification over all cut points.", "anchors": ["packages/mcni/python/mcni/neutron_storage/idf_usenumpy.py: count, read, readall, write, append", "packages/mcni/python/mcni/neutron_storage/idfneutron.py: headersize, filesize", "packages/mcni/python/mcni/neutron_storage/__init__.py: dump, load"]}
{"id": "C05", "title": "Merging neutron files is concatenation", "statement": "merge(paths, newpath) produces a file whose neutrons are the neutrons of all input files, in the order of the list, including when some inputs are empty; it refuses an empty list of inputs and an already existing output and then changes no file.", "quantifier": "every non-empty list of input files with any contents (including empty files)", "why_tests_cant": "Statement over all lists of files and contents; an empty input exercises the \"read returns nothing\" path.", "anchors": ["packages/mcni/python/mcni/neutron_storage/_merge.py: merge", "packages/mcni/python/mcni/neutron_storage/Storage.py: Storage.read, write, close"]}
{"id": "C06", "title": "Normalizing a neutron file scales only the intensity column", "statement": "normalize(file, N) leaves the number and order of neutrons and their position, velocity, spin and time unchanged and divides the probability of every neutron by N, whatever the internal chunking.", "quantifier": "every file content, every nonzero factor and every chunk size", "why_tests_cant": "The code streams the file in chunks of a million; chunk boundaries can only be covered for all lengths by induction.", "anchors": ["packages/mcni/python/mcni/neutron_storage/__init__.py: normalize, _normalize"]}
{"id": "C07", "title": "In-place normalization is crash safe", "statement": "If the process dies at any point during normalize(file, N), afterwards the file holds either its complete original content or its complete normalized content.", "quantifier": "every content and every crash point between file-system operations", "why_tests_cant": "Crash points inside a function cannot be enumerated by calling it.", "anchors": ["packages/mcni/python/mcni/neutron_storage/__init__.py: normalize, _normalize"]}
{"id": "C08", "title": "Merge-and-normalize gives intensity per source neutron", "statement": "After the post-processing of a neutron-storing component, the mean probability over the merged file equals (sum of raw probabilities)/(total number of Monte Carlo samples), independent of how the run was divided into steps and ranks; the number of storage files must equal the number of sample-count files or an error is raised.", "quantifier": "every division of a run into steps and ranks, every list of per-step outputs", "why_tests_cant": "Independence from the division of the run is a statement over all partitions of the event stream.", "anchors": ["packages/mcni/python/mcni/components/NeutronToStorage.py: merge_and_normalize_serial", "packages/mcni/python/mcni/neutron_storage/__init__.py: merge_and_normalize", "packages/mcni/python/mcni/components/outputs.py: mcs_sum, n_mcsamples_files"]}
{"id": "C09", "title": "MPI partition covers the requested neutron count", "statement": "Splitting ncount neutrons over n nodes gives at most n positive shares, the shares add up to ncount and differ by at most one.", "quantifier": "every ncount>=0 and every n>=1", "why_tests_cant": "Two unbounded parameters; the interesting region (ncount smaller than n) is easily missed.", "anchors": ["packages/mcni/python/mcni/pyre_support/Instrument.py: getPartitions, getPartitionIterator, partition", "packages/mcvine/python/mcvine/run_script.py: run1_mpi"]}
{"id": "C10", "title": "Batched simulation runs exactly the requested number of neutrons", "statement": "The batched main loops run non-empty batches of at most buffer_size neutrons with consecutive iteration numbers starting from 0 and the batch sizes add up to the requested count, and no iteration number is used twice.", "quantifier": "every ncount>=0 and buffer_size>=1, for both the script runner and the application runner", "why_tests_cant": "Off-by-one behaviour at multiples of the buffer size must be excluded for all pairs.", "anchors": ["packages/mcvine/python/mcvine/run_script.py: run1, run_mpi", "packages/mcni/python/mcni/pyre_support/Instrument.py: Instrument.main"]}
{"id": "C11", "title": "Steps and ranks never share an output directory", "statement": "Two different (rank, step) pairs of one run use different in-progress output directories, so no step overwrites the output of another.", "quantifier": "every pair of ranks and steps", "why_tests_cant": "Injectivity of string formatting over all pairs of naturals.", "anchors": ["packages/mcni/python/mcni/SimulationContext.py: SimulationContext.getOutputDirInProgress"]}
{"id": "C12", "title": "Parallel replay of a neutron file hands every node its own consecutive chunk", "statement": "When a stored neutron file is replayed in an MPI run with S nodes, in round t with n neutrons per node node i receives records (t*S+i)*n .. (t*S+i+1)*n-1 (cyclically); hence the concatenation of what the nodes get over all rounds, in rank order within a round, is the cyclic file content with no gap and no repetition.", "quantifier": "every S>=1, file, n>0 and number of rounds", "why_tests_cant": "Statement over all schedules of rounds and all S; needs an invariant about the master cursor.", "anchors": ["packages/mcni/python/mcni/components/NeutronFromStorage.py: NeutronFromStorage.process, _setCursor", "packages/mcni/python/mcni/neutron_storage/Storage.py: seek, read"]}
{"id": "C13", "title": "Histogram reduction is independent of the number of nodes", "statement": "Merging per-step histogram files over any number of nodes gives the bin-wise sum of all histograms (intensity and squared error), the same as the serial merge, with every file used exactly once; normalization divides intensities by the sample count and squared errors by its square.", "quantifier": "every number of files, every number of nodes (also more nodes than files), every histogram content", "why_tests_cant": "Work division by ceiling arithmetic can lose or duplicate files for particular (files, nodes) pairs only.", "anchors": ["packages/mcni/python/mcni/components/HistogramBasedMonitorMixin.py: merge_and_normalize, hist_mcs_sum, hist_mcs_sum_parallel"]}
{"id": "C14", "title": "Concurrent workers can share one fresh work directory", "statement": "When a script is run on several MPI nodes in a fresh work directory, every worker starts its simulation and no worker deletes output written by another, whatever the relative speed of the workers.", "quantifier": "every interleaving of the workers", "why_tests_cant": "The outcome depends on the schedule; tests observe one schedule.", "anchors": ["packages/mcvine/python/mcvine/run_script.py: run_mpi, run1_mpi, run1, _check_workdir"]}
{"id": "C15", "title": "Result cache never confuses different parameter values", "statement": "Two invocations of a cached command that differ in a parameter value or in an argument use different cache entries, so --use-cache never returns results computed for other parameters; identical invocations share the entry.", "quantifier": "every pair of parameter dictionaries and argument lists", "why_tests_cant": "Injectivity of the cache key over all invocations.", "anchors": ["packages/mcvine/python/mcvine/cli/_provenance.py: arg_str, unique_identifier, cache_path, save_metadata"]}
{"id": "C16", "title": "Changing component frames is a rigid motion and intermediate frames do not matter", "statement": "Transporting a neutron from one component frame to another preserves speed, time, probability and distances between neutrons, going there and back is the identity, and transporting through any chain of components equals going directly.", "quantifier": "every pair / finite chain of positions and proper rotations and every neutron state", "why_tests_cant": "Continuous families of frames; a sampled test only shows approximate equality at points.", "anchors": ["packages/mcni/python/mcni/neutron_coordinates_transformers/mcstas.py", "packages/mcni/lib/geometry/coords_transform.icc", "packages/mcni/lib/neutron/coords_transform.icc", "packages/mcni/python/mcni/instrument_simulator/SimulationNode.py"]}
{"id": "C17", "title": "Orientation angles give proper rotations and can be recovered", "statement": "The rotation matrix built from three orientation angles is orthogonal with determinant one, and recovering angles from any rotation matrix and rebuilding gives the same matrix, including at gimbal lock (rotations within 1e-8 of, but not at, gimbal lock are the subject of C66).", "quantifier": "every triple of angles", "why_tests_cant": "Continuous family including a singular locus of measure zero.", "anchors": ["packages/mcni/python/mcni/neutron_coordinates_transformers/mcstasRotations.py: _toMatrix, toMatrix, toAngles"]}
{"id": "C18", "title": "Relative placement equals composed placement", "statement": "In an instrument whose components are placed absolutely, relative to a named component or relative to the previous one, the reported absolute position and orientation of every component equal the composition of the relative placements along the reference chain; missing or self-referring references are reported as errors.", "quantifier": "every finite instrument, every acyclic reference structure, every history of register/query calls in which no element is registered twice", "why_tests_cant": "Reference chains have unbounded length and the caching behaviour depends on the history of queries.", "anchors": ["packages/mcni/python/mcni/Geometer2.py: Geometer.register, position, orientation, _calcAbsPosition, _calcAbsOrientation, _findReference", "packages/mcni/python/mcni/coordinate_system_transformers/mcstas.py"]}
{"id": "C19", "title": "Batch frame change agrees with the exact frame change", "statement": "The batched frame change used by the simulation, which skips work when the displacement and rotation are nearly trivial, gives the exact frame change for every neutron when the displacement/rotation is exactly trivial or not nearly trivial, and otherwise deviates by at most the tolerance times (one plus the size of the coordinates); number and order of the neutrons, time, spin and probability are untouched.", "quantifier": "every offset, rotation and batch of neutrons", "why_tests_cant": "Error bound over a continuum.", "anchors": ["packages/mcni/lib/neutron/coords_transform.cc: abs2rel_batch, rel2abs_batch", "packages/mcni/lib/neutron/coords_transform.icc: is_almost_I, is_almost_0"]}
{"id": "C20", "title": "Every event in a batch is scattered exactly once and exactly the survivors remain", "statement": "Processing a batch through a component applies its scattering exactly once to each event and the resulting batch contains exactly (as a multiset) the scattered events that were not absorbed; multiple-scattering processing yields, in order, all surviving scattered descendants of each event.", "quantifier": "every batch, every (deterministic per event) scatterer and every pattern of absorptions", "why_tests_cant": "The swap-with-last removal interacts with the loop index; 2^n absorption patterns.", "anchors": ["packages/mcni/lib/mcni/process_neutron_events.cc: _process_T, _processM_T", "packages/mcni/lib/mcni/AbstractNeutronScatterer.icc: absorb, invalid"]}
{"id": "C21", "title": "Snapshot keeps exactly the live neutrons", "statement": "The snapshot of a batch contains, in order, exactly those of its first n events whose probability is positive, taking a snapshot of a snapshot changes nothing more, and no live neutron is lost.", "quantifier": "every batch and every n up to its size", "why_tests_cant": "Filter correctness for every pattern of dead neutrons.", "anchors": ["packages/mcni/lib/neutron/EventBuffer.cc: isInValid, snapshot", "packages/mcni/python/mcni/bindings/boostpython/_patch_neutronevents_bp_interface.py: snapshot", "packages/mcni/python/mcni/instrument_simulator/SimulationNode.py"]}
{"id": "C22", "title": "Simulation chain applies components in sequence order", "statement": "Simulating an instrument processes the neutron buffer by the components one after another in the order of the component sequence, each exactly once and each in its own frame, the final neutrons being the composition of the individual effects.", "quantifier": "every sequence of components with distinct names, every component behaviour", "why_tests_cant": "Sequence composition over unbounded chains; duplicate names break it silently.", "anchors": ["packages/mcni/python/mcni/instrument_simulator/SimulationChain.py: _create", "packages/mcni/python/mcni/instrument_simulator/SimulationNode.py: process", "packages/mcni/python/mcni/Instrument.py: append, insert"]}
{"id": "C23", "title": "Event area monitor records exactly the neutrons that hit it", "statement": "For every batch with a hit the events written are exactly one per neutron that crosses the monitor area within the time window, in order, with the weight of the neutron and the time channel that contains its arrival time; neutrons outside are not recorded.", "quantifier": "every panel size, pixel grid, time window and batch history", "why_tests_cant": "Continuum of crossing points; effect of one batch on the next.", "anchors": ["packages/mcni/python/mcni/components/EventAreaMonitor.py: EventAreaMonitor.process"]}
{"id": "C24", "title": "Detector pixel numbering is injective and in range", "statement": "In event mode the multi-level detector/pixel index is mapped to a pixel number below the product of the dimensions and two different index tuples never share a pixel number; the first index not in range decides whether the event is refused (too large) or ignored (negative); the dimensions computed from a detector hierarchy make no event of a tube in the hierarchy refused.", "quantifier": "every list of level dimensions with a product up to 2^32, every pair of in-range index tuples, every detector hierarchy", "why_tests_cant": "Injectivity over all tuples in all radices.", "anchors": ["packages/mccomponents/lib/kernels/detector/EventModeMCA.cc: EventModeMCA.accept", "packages/mccomponents/python/mccomponents/detector/utils.py: getDetectorHierarchyDimensions"]}
{"id": "C25", "title": "Time and height channels", "statement": "A time of flight inside [min,max) is binned to the channel whose half-open interval contains it, the channel lies in [0,number of channels), anything outside is rejected; the height along a tube of given length and pixel count is mapped to the pixel that contains it.", "quantifier": "every binning and every real value", "why_tests_cant": "Continuum, boundaries.", "anchors": ["packages/mccomponents/lib/kernels/detector/Tof2Channel.icc", "packages/mccomponents/lib/kernels/detector/Z2Channel.icc"]}
{"id": "C26", "title": "Histogram monitors count additively", "statement": "The histogram accumulated by a monitor after any sequence of batches is the bin-wise sum over all neutrons of their probability (and squared probability for the error) for neutrons inside the range, independent of how the neutrons were batched.", "quantifier": "every axes specification, every sequence of batches", "why_tests_cant": "Batch independence over all histories.", "anchors": ["packages/mcni/python/mcni/components/NDMonitor.py: NDMonitor.process", "packages/mcni/python/mcni/components/HistogramBasedMonitorMixin.py"]}
{"id": "C27", "title": "Point location implements solid geometry", "statement": "Locating a point in a solid built from blocks, spheres, cylinders, cones and pyramids by union, intersection, difference, translation, rotation and dilation answers inside only for interior points of the described set, outside only for points outside of it and border otherwise, within the rounding tolerance.", "quantifier": "every shape tree and every point", "why_tests_cant": "Shape trees are unbounded; points form a continuum.", "anchors": ["packages/mccomposite/lib/geometry/visitors/Locator.cc"]}
{"id": "C28", "title": "Bounding boxes enclose the shape", "statement": "The bounding box computed for a shape contains every point of the shape.", "quantifier": "every shape tree and every point", "why_tests_cant": "Universal over shape trees and points.", "anchors": ["packages/mccomposite/lib/geometry/visitors/BoundingBoxMaker.cc"]}
{"id": "C29", "title": "Ray/shape intersections lie on the surface and none is missed", "statement": "The intersection times reported for a straight flight path and a primitive solid are exactly the times at which the path crosses the surface of the solid (a path in general position), and for transformed solids equal those of the untransformed solid seen in its own frame.", "quantifier": "every ray, primitive and transformation", "why_tests_cant": "Continuum of rays.", "anchors": ["packages/mccomposite/lib/geometry/visitors/ArrowIntersector.cc", "packages/mccomposite/lib/geometry/intersect.cc"]}
{"id": "C30", "title": "Only forward intersections are used and the nearest hit is chosen", "statement": "The forward intersections are exactly the non-negative ones in the original order, and the first-hit search returns an object whose forward hit time is minimal among all objects.", "quantifier": "every list of intersections/objects", "why_tests_cant": "Minimality over all lists.", "anchors": ["packages/mccomposite/lib/geometry/intersect.cc: forward_intersect", "packages/mccomposite/lib/geometry/intersect.icc: find_1st_hit, find_shape_containing_point"]}
{"id": "C31", "title": "Attenuation is a physical transmission factor", "statement": "The attenuation along a path is exp(-(absorption+scattering coefficient) x length of the path inside the shape), hence lies in (0,1], is 1 for a path that misses the shape, does not depend on the speed, and the attenuation of a path cut in two at any point is the product of both parts.", "quantifier": "every shape of finite extent, every start and flight time (the clauses on the exact value: paths in general position)", "why_tests_cant": "Continuum and lists of arbitrary length.", "anchors": ["packages/mccomponents/lib/homogeneous_scatterer/HomogeneousNeutronScatterer.cc: calculate_attenuation", "packages/mccomposite/lib/mccomposite/CompositeNeutronScatterer_Impl.cc: calculate_attenuation"]}
{"id": "C32", "title": "Propagation to a surface is a straight flight forward to the nearest surface", "statement": "Propagating a neutron to the next incident or exiting surface of a shape moves it along its straight line, never backward in time, changing nothing but position and time, to a point of the surface; on the way it does not enter (incident) or leave (exiting) the shape; a neutron that is not moved to an incident surface never meets the shape; the reported time of flight before exit is that of the flight; a neutron reported as exiting never meets the shape again.", "quantifier": "every shape and every neutron state (the clauses on what is met along the way: paths in general position, no cones)", "why_tests_cant": "Continuum of states and all compositions of shapes.", "anchors": ["packages/mccomposite/lib/mccomposite/neutron_propagation.cc: propagate_to_next_exiting_surface, propagate_to_next_incident_surface, tof_before_exit, is_exiting", "packages/mccomposite/lib/mccomposite/neutron_propagation.h: propagate"]}
{"id": "C33", "title": "A composite scatterer creates no intensity and asks only constituents on the path", "statement": "Scattering by a composite ends within the configured number of loops. In the multiple scattering mode, if no interaction with a constituent multiplies the intensity by more than k >= 1 and attenuation is between 0 and 1, the outgoing probabilities are non-negative and sum up to at most k^(loops) times that of the incoming neutron, and the number of outgoing neutrons is bounded likewise; in the single mode a neutron is lost or leaves with at most its probability. A constituent is asked only for neutrons that are not below the threshold and whose flight in the frame of the constituent goes through its interior. Neutrons below the threshold or at rest are dropped, leaving neutrons are passed on unchanged. Frames: the flight given to a constituent is the same flight, and back.", "quantifier": "every composite, every behaviour of the constituents (hence every random choice), every neutron", "why_tests_cant": "Adversarial behaviours of constituents and random choices, unbounded numbers of loops.", "anchors": ["packages/mccomposite/lib/mccomposite/CompositeNeutronScatterer_Impl.cc: scatter, scatterM, interact_path1, interactM_path1, calculate_attenuation"]}
{"id": "C34", "title": "Importance-sampled interaction choice is unbiased", "statement": "For one interaction of a neutron with a homogeneous scatterer, whatever weights the user gives to transmission, absorption and scattering: for every observable of place, velocity and time, the expectation over the random numbers of its weighted sum over the transmitted neutrons, over the neutrons handed to the absorption of the kernel and over those handed to the scattering of the kernel are p*exp(-(mu+sigma)*d) at the exit, the integral of p*mu*exp(-(mu+sigma)*x) and that of p*exp(-(mu+sigma)*x) along the path; exactly one channel is chosen for each random number, with probability proportional to its weight; the multiple scattering mode gives the same transmitted weight, total absorbed weight and scattered expectation; the weights add up.", "quantifier": "every shape, kernel, neutron, observable, positive weights, coefficients", "why_tests_cant": "Expectation over continuous random variables for all parameters.", "anchors": ["packages/mccomponents/lib/homogeneous_scatterer/HomogeneousNeutronScatterer.cc: interact_path1, _interactM1, mu", "packages/mccomponents/lib/math/random.cc: random"]}
{"id": "C35", "title": "Random selection of a kernel is unbiased", "statement": "A composite kernel selects each constituent with the frequency of its weight among the weights, always one that exists, and changes the probability such that the expected value of any observable after scattering (or absorption) is the sum of those for the constituents alone, whatever the weights; more than one total-scattering kernel is rejected.", "quantifier": "every list of kernels (arbitrary stateful objects), positive weights, orientations, every neutron and every random number", "why_tests_cant": "Measure statement over a continuum and all lists.", "anchors": ["packages/mccomponents/lib/homogeneous_scatterer/CompositeScatteringKernel.cc: select_kernel, ctor, scatter, absorb, scattering_coefficient"]}
{"id": "C36", "title": "Scattering kernels conserve energy and momentum", "statement": "After scattering the neutron has lost exactly the energy E and its wave vector has changed by exactly the length Q (or vector Q), for the pair (Q,E) that the kernel drew or was given and that lies in its range; place, time and spin are kept; where the kinematic range check passes the result is a number.", "quantifier": "every incoming neutron, sampled Q, E and azimuth", "why_tests_cant": "Continuum, including incoming directions arbitrarily near the vertical axis where the basis construction switches.", "anchors": ["packages/mccomponents/lib/kernels/sample/SQEkernel.cc: S", "packages/mccomponents/lib/kernels/sample/SQkernel.cc: S", "packages/mccomponents/lib/kernels/sample/ConstantQEKernel.cc: S", "packages/mccomponents/lib/kernels/sample/ConstantvQEKernel.cc: S", "packages/mccomponents/lib/kernels/sample/E_Q_Kernel.icc: S"]}
{"id": "C37", "title": "Powder diffraction scattering does not depend on history", "statement": "The outcome of scattering a neutron by a powder kernel is a function of that neutron and the random numbers only, not of neutrons scattered before; only peaks reachable at the neutron speed are chosen, the momentum transfer is the q of the peak, the energy is kept, the scattering coefficient is the sum over reachable peaks, and the expected weight is the scattering coefficient.", "quantifier": "every history of scattered neutrons, every sorted peak list", "why_tests_cant": "History dependence appears only after a particular earlier neutron.", "anchors": ["packages/mccomponents/lib/kernels/sample/diffraction/SimplePowderDiffractionKernel.cc: scatter, scattering_xs"]}
{"id": "C38", "title": "Single-crystal Bragg scattering has the right expectation", "statement": "For every random number in [0,1) the reflection chosen is one of the list and the weight is positive; the expected weight scattered by each reflection is its macroscopic cross section, for any observable of the velocity, and the total is the scattering coefficient; the list of reflections exists unless the wave vector is itself a lattice vector.", "quantifier": "every crystal, neutron, observable and normal random numbers", "why_tests_cant": "An expectation over a continuum of random numbers for all lists of reflections.", "anchors": ["packages/mccomponents/lib/kernels/sample/diffraction/SingleCrystalDiffractionKernel.cc: scatter, setup_tau_info_list, scattering_coefficient"]}
{"id": "C39", "title": "Binary search in a sorted table", "statement": "Searching a sorted table for a value returns the first index whose entry is greater than or equal to the value.", "quantifier": "every sorted array and value", "why_tests_cant": "All arrays; the failing case is equality with the last element.", "anchors": ["packages/mccomponents/lib/math/search.icc: find_1st_bin_larger_than"]}
{"id": "C40", "title": "Linear interpolation is exact on multilinear data and stays within the data range", "statement": "Interpolating gridded data in one, two or three dimensions reproduces the data at grid nodes, reproduces any (multi)linear function exactly, and never leaves the range of the surrounding nodes; nearest-neighbour lookup gives the data of a node within half a step; a query outside the grid fails. (The last grid plane: C104.)", "quantifier": "every grid, data and query point", "why_tests_cant": "Continuum of query points and all grids.", "anchors": ["packages/mccomponents/lib/kernels/sample/phonon/interpolate.h", "packages/mccomponents/lib/kernels/sample/phonon/LinearlyInterpolatedGridData_1D.icc", "packages/mccomponents/lib/kernels/sample/phonon/LinearlyInterpolatedGridData_3D.icc", "packages/mccomponents/lib/kernels/sample/phonon/NNGridData_3D.icc"]}
{"id": "C41", "title": "Periodic dispersion is periodic", "statement": "The phonon energy and polarisation returned by a periodic dispersion are unchanged when any reciprocal lattice vector is added to Q; the reduced vector has coordinates in [0,1), differs from Q by a lattice vector, and a vector of the first cell is not changed, so that there the dispersion is the one given.", "quantifier": "every basis, Q and integer triple", "why_tests_cant": "All lattice vectors.", "anchors": ["packages/mccomponents/lib/kernels/sample/phonon/PeriodicDispersion_3D.cc: decimal_part, reducedQ, energy", "packages/mcni/lib/geometry/Vector3.icc: get_inversions"]}
{"id": "C42", "title": "Density of states follows its data and is zero outside its range", "statement": "A density of states built from sampled data is the straight line between the data, scaled so that the sum times the step is one; it is not negative for non-negative data, defined for every energy and zero outside the sampled range; invalid data (too short, length mismatch, descending or negative energies) is rejected; the coefficient for low energies is the best fit of a parabola to the first 20 values.", "quantifier": "every sampled data set, every energy", "why_tests_cant": "All data sets and a continuum of energies.", "anchors": ["packages/mccomponents/lib/kernels/sample/phonon/LinearlyInterpolatedDOS.icc", "packages/mccomponents/lib/kernels/sample/phonon/AbstractDOS.h", "packages/mccomponents/lib/math/regression/linear1.h"]}
{"id": "C43", "title": "Phonon data files round trip", "statement": "Energies, momentum transfers, squared frequencies, polarization vectors, tables S(Q,E) and densities of states that are written to the idf formats are read again with their shape, values and comment; if writing fails, no unreadable file is left.", "quantifier": "every array of the shapes documented, every comment", "why_tests_cant": "Byte offsets for all shapes; failures in the middle of writing.", "anchors": ["packages/mccomponents/python/mccomponents/sample/idf/E.py", "packages/mccomponents/python/mccomponents/sample/idf/Q.py", "packages/mccomponents/python/mccomponents/sample/idf/Omega2.py", "packages/mccomponents/python/mccomponents/sample/idf/Polarizations.py", "packages/mccomponents/python/mccomponents/sample/idf/Sqe.py", "packages/mccomponents/python/mccomponents/sample/idf/DOS.py", "packages/mccomponents/python/mccomponents/sample/idf/__init__.py: readDOS"]}
{"id": "C44", "title": "Multiphonon spectra are normalised convolution powers", "statement": "The n-phonon spectrum is the (n-1)-fold discrete convolution of the one-phonon spectrum, on the same symmetric energy grid without shift, and normalised; the energy-reflected density of states is odd/even symmetric as required.", "quantifier": "every odd-length symmetric spectrum and every n", "why_tests_cant": "Index alignment of convolution for every length and every n.", "anchors": ["packages/mccomponents/python/mccomponents/sample/phonon/multiphonon.py: computeAnESet, AnE_from_n_1, convMatrix, reflected"]}
{"id": "C45", "title": "Component facility names decode what was encoded", "statement": "A facility specifier supplier://category/type(arguments) in the documented syntax decodes to its parts with the arguments stripped of blanks, and encoding a component and decoding gives back the same component.", "quantifier": "every supplier, category, type and list of arguments", "why_tests_cant": "Round trip over all strings.", "anchors": ["packages/mcni/python/mcni/pyre_support/NeutronComponentFacility.py: _encode, _decode"]}
{"id": "C46", "title": "Registries behave like maps", "statement": "After any history of calls a component registry hands out for a (category, type) the factory and the information of the most recently registered module, else of the last repository that has one, else raises NotRegisteredError; it lists each type once, exactly when a factory is registered for it; a failed request changes nothing.", "quantifier": "every history of calls and every set of repositories", "why_tests_cant": "Histories of unbounded length; failures in the middle of an update.", "anchors": ["packages/legacycomponents/mcstas2/python/mcstas2/components/Registry.py: Registry"]}
{"id": "C47", "title": "Component group leaves its input untouched and gives every member the same neutrons", "statement": "A group of parallel components gives each member a fresh copy of the live incoming neutrons in the frame of the member; the neutrons passed on are those that came in, whatever members do to their copies, to those of others and to what they share.", "quantifier": "every list of members, behaviours, frames and neutrons", "why_tests_cant": "Adversarial members with aliasing.", "anchors": ["packages/mcni/python/mcni/components/ComponentGroup.py: ComponentGroup.process"]}
{"id": "C48", "title": "Reciprocal basis", "statement": "The reciprocal basis computed from three linearly independent vectors satisfies a_i.b_j = delta_ij (the code carries no factor 2 pi), is the only basis that does, is finite exactly if the vectors are not in a plane, and taking it twice gives back the vectors.", "quantifier": "every non-degenerate triple of vectors", "why_tests_cant": "Continuum.", "anchors": ["packages/mcni/lib/geometry/Vector3.icc: get_inversions"]}
{"id": "C49", "title": "Momentum transfer of a reflection", "statement": "The momentum transfer of the reflection (h k l) is 2 pi |h b1 + k b2 + l b3| with the reciprocal vectors b, and times the spacing of the lattice planes it is 2 pi, whether the reflection is computed or read from a LAZ file.", "quantifier": "every lattice and every hkl", "why_tests_cant": "The formulas differ only for lattices that are not orthogonal.", "anchors": ["packages/mccomponents/python/mccomponents/sample/diffraction/parsers/laz.py: _q", "packages/mccomponents/python/mccomponents/sample/diffraction/calcpeaks.py: q, d"]}
{"id": "C50", "title": "Root bracketing finds only real roots", "statement": "Every value returned by the root finder lies in the requested interval, is an exact root at a grid point or lies strictly inside a sub-interval with a sign change, and is within half a step of a root of a continuous function; a sign change on the sampling grid always produces a root in that sub-interval.", "quantifier": "every function, interval, accuracy (not finer than the 2^59-th part of a step) and number of sub-intervals", "why_tests_cant": "All functions; the loop ends with an exception that is swallowed by the caller, so a lost root leaves no trace.", "anchors": ["packages/mccomponents/lib/math/rootfinding.cc: FindRootsEvenly::solve, zridd, check_answer", "packages/mccomponents/lib/math/misc.cc: sign"]}
{"id": "C51", "title": "Flushed neutrons are in the file", "statement": "After a successful flush of a storage opened for writing, every neutron written so far is in the file.", "quantifier": "every buffer size and history of write/flush calls", "why_tests_cant": "Depends on the relation between the amount buffered and the buffer size; only visible to an observer of the file between flush and close.", "anchors": ["packages/mcni/python/mcni/neutron_storage/Storage.py: Storage.flush, _dump"]}
{"id": "C52", "title": "Writing to a closed storage is reported", "statement": "A write call on a storage that was closed raises; neutrons are never accepted and then lost.", "quantifier": "every history of write/flush/close calls", "why_tests_cant": "The loss is silent, and depends on the batch being smaller than the buffer.", "anchors": ["packages/mcni/python/mcni/neutron_storage/Storage.py: Storage.write, close"]}
{"id": "C53", "title": "Reading zero neutrons reads nothing", "statement": "read(0) returns no neutrons and leaves the cursor where it is.", "quantifier": "every file and cursor", "why_tests_cant": "Zero sized shares arise only for some partitions of a run.", "anchors": ["packages/mcni/python/mcni/neutron_storage/Storage.py: Storage.read"]}
{"id": "C54", "title": "A refused seek leaves the cursor alone", "statement": "A seek that raises leaves tell() at its previous value, and later reads continue from there.", "quantifier": "every file, cursor and out-of-range target", "why_tests_cant": "The state after an exception is normally not inspected by a test.", "anchors": ["packages/mcni/python/mcni/neutron_storage/Storage.py: Storage.seek"]}
{"id": "C55", "title": "A wrapping read at the end of the file starts over", "statement": "A wrapping read(n), n>0, issued when earlier non-wrapping reads have consumed the file exactly to its end, delivers n neutrons from the start of the file.", "quantifier": "every non-empty file and n>0", "why_tests_cant": "Needs a particular mixture of wrapping and non-wrapping reads.", "anchors": ["packages/mcni/python/mcni/neutron_storage/Storage.py: Storage.read"]}
{"id": "C56", "title": "Library merge-and-normalize handles runs in which no neutron was stored", "statement": "mcni.neutron_storage.merge_and_normalize gives the same merged file as the post-processing of the storage component, including when no neutron reached the storage.", "quantifier": "every list of storage files and sample counts", "why_tests_cant": "Empty results are a legitimate but rare outcome.", "anchors": ["packages/mcni/python/mcni/neutron_storage/__init__.py: merge_and_normalize", "packages/mcni/python/mcni/components/NeutronToStorage.py: merge_and_normalize_serial"]}
{"id": "C57", "title": "Normalizing a detector event file is crash safe", "statement": "If the process dies during normalizeEventFile, the file holds either its complete original events or its complete normalized events.", "quantifier": "every content and every crash point", "why_tests_cant": "Crash points inside a function cannot be enumerated by calling it.", "anchors": ["packages/mccomponents/python/mccomponents/detector/event_utils.py: normalizeEventFile"]}
{"id": "C58", "title": "A neutron file with a torn last record can still be loaded", "statement": "After a crash that left an incomplete trailing record, loading the file gives all complete records.", "quantifier": "every list of records and every number of trailing bytes below one record", "why_tests_cant": "Cut points are arbitrary; a test writes complete files.", "anchors": ["packages/mcni/python/mcni/neutron_storage/idf_usenumpy.py: readall, read", "packages/mcni/python/mcni/neutron_storage/__init__.py: load"]}
{"id": "C59", "title": "The neutron count in the header is right", "statement": "The neutron count stored in the header of a neutron file equals the number of neutrons written by the call that created the file.", "quantifier": "every list of neutrons, for dump and for write", "why_tests_cant": "Nothing in the repository reads the header count back, so a test does not notice.", "anchors": ["packages/mcni/python/mcni/neutron_storage/__init__.py: dump, neutrons_as_npyarr", "packages/mcni/python/mcni/neutron_storage/idf_usenumpy.py: write"]}
{"id": "C60", "title": "The format check recognises neutron files", "statement": "checkformat answers yes for every file produced by write and no for files with another type or version.", "quantifier": "every file content", "why_tests_cant": "Two-sided recognition over all byte strings.", "anchors": ["packages/mcni/python/mcni/neutron_storage/idf_usenumpy.py: checkformat", "packages/mcni/python/mcni/neutron_storage/__init__.py: readneutrons_asnpyarr"]}
{"id": "C61", "title": "Writing neutrons leaves the array of the caller alone", "statement": "Writing an array of neutrons does not change the array, so that writing it twice gives identical files.", "quantifier": "every array", "why_tests_cant": "A hidden side effect on the argument; only a second use of the same array shows it.", "anchors": ["packages/mcni/python/mcni/neutron_storage/idf_usenumpy.py: write"]}
{"id": "C62", "title": "Every node of a parallel run gets a share", "statement": "In a parallel run over n nodes every rank gets a share of the neutrons, so no rank fails before simulating.", "quantifier": "every ncount>0 and n>=1", "why_tests_cant": "The failing region (fewer neutrons than nodes) is a legitimate but untested configuration.", "anchors": ["packages/mcni/python/mcni/pyre_support/Instrument.py: getPartitions, partition", "packages/mcvine/python/mcvine/run_script.py: run1_mpi"]}
{"id": "C63", "title": "A run of zero neutrons is accepted", "statement": "Asking a runner for zero neutrons runs no batch and finishes normally, like the script runner does.", "quantifier": "every runner and buffer size", "why_tests_cant": "Boundary value of an unbounded parameter.", "anchors": ["packages/mcvine/python/mcvine/run_script.py: run1, run_mpi", "packages/mcni/python/mcni/pyre_support/Instrument.py: Instrument.main"]}
{"id": "C64", "title": "Keeping a result in the cache runs the command the user gave", "statement": "With --keep-in-cache the command that is executed has the parameters and arguments of the invocation, so the cached result belongs to them.", "quantifier": "every parameter dictionary and argument list", "why_tests_cant": "Holds or fails for all invocations with parameters.", "anchors": ["packages/mcvine/python/mcvine/cli/_provenance.py: arg_str, save_metadata"]}
{"id": "C65", "title": "Small displacements between components add up correctly", "statement": "The position of a neutron relative to the last of many components is right within a fixed tolerance, however many components there are between.", "quantifier": "every finite chain of components", "why_tests_cant": "The deviation grows with the length of the chain.", "anchors": ["packages/mcni/lib/neutron/coords_transform.cc: abs2rel_batch", "packages/mcni/python/mcni/instrument_simulator/SimulationChain.py"]}
{"id": "C66", "title": "Angles can be recovered from the matrix of any orientation", "statement": "toAngles(toMatrix(angles)) succeeds for every triple of angles and describes the same orientation.", "quantifier": "every triple of angles", "why_tests_cant": "The failures are confined to a thin shell around gimbal lock.", "anchors": ["packages/mcni/python/mcni/neutron_coordinates_transformers/mcstasRotations.py: toMatrix, toAngles"]}
{"id": "C67", "title": "Re-registration of an element takes effect", "statement": "Registering an element again at a new place changes the reported absolute position of this element and of all elements placed relative to it.", "quantifier": "every history of register and query calls", "why_tests_cant": "Depends on whether a query happened between the two registrations.", "anchors": ["packages/mcni/python/mcni/Geometer2.py: Geometer.register, position, _abspos, _absori"]}
{"id": "C68", "title": "A snapshot of more neutrons than present is safe", "statement": "Asking for a snapshot of the first n neutrons with n larger than the batch gives an error or the whole batch.", "quantifier": "every batch and n", "why_tests_cant": "What happens depends on memory contents.", "anchors": ["packages/mcni/lib/neutron/EventBuffer.cc: snapshot", "packages/mcni/python/mcni/bindings/boostpython/_patch_neutronevents_bp_interface.py: snapshot"]}
{"id": "C69", "title": "Components of the same name are all simulated", "statement": "Every component of the sequence takes part in the simulation even if two have the same name, or the construction is refused.", "quantifier": "every sequence of components", "why_tests_cant": "Names are data; the omission is silent.", "anchors": ["packages/mcni/python/mcni/instrument_simulator/SimulationChain.py: _create"]}
{"id": "C70", "title": "Event area monitor assigns every hit to the pixel it hit", "statement": "The pixel number of a recorded event is that of the pixel containing the crossing point (column times number of rows plus row), and lies below the number of pixels.", "quantifier": "every panel size, pixel grid and crossing point", "why_tests_cant": "Continuum of crossing points; the error is invisible when neutrons cross at column starts.", "anchors": ["packages/mcni/python/mcni/components/EventAreaMonitor.py: EventAreaMonitor.process"]}
{"id": "C71", "title": "A batch without hits adds no events", "statement": "A batch in which no neutron hits the area monitor writes no events.", "quantifier": "every history of batches", "why_tests_cant": "Effect of one batch on the next.", "anchors": ["packages/mcni/python/mcni/components/EventAreaMonitor.py: EventAreaMonitor.process", "packages/mcni/python/mcni/pyre_components/EventAreaMonitor.py: process, _saveResult"]}
{"id": "C72", "title": "Monitors record only neutrons that reach them", "statement": "A neutron that is past the monitor and flying away from it is not recorded; times recorded are never before the time of the neutron.", "quantifier": "every neutron", "why_tests_cant": "Sign of a flight time over a continuum.", "anchors": ["packages/mcni/python/mcni/components/EventAreaMonitor.py: _propagateToZ0", "packages/mcni/python/mcni/components/NDMonitor.py: _propagateToZ0"]}
{"id": "C73", "title": "Any detector hierarchy can be numbered", "statement": "The dimensions of a detector hierarchy are computed also when a pack has no tubes, independent of the order of the packs.", "quantifier": "every detector hierarchy", "why_tests_cant": "Tree-shaped inputs of any size.", "anchors": ["packages/mccomponents/python/mccomponents/detector/utils.py: GetDetectorHierarchyDimensions.onContainer"]}
{"id": "C74", "title": "A tube with any positive number of pixels can be built", "statement": "A detector tube with one or more pixels can be constructed.", "quantifier": "every number of pixels", "why_tests_cant": "Boundary value.", "anchors": ["packages/mccomponents/python/mccomponents/detector/ComputationEngineRendererExtension.py: onHe3Tube"]}
{"id": "C75", "title": "Bounding boxes of rotated shapes enclose them", "statement": "The bounding box of a rotated shape contains every point of the rotated shape.", "quantifier": "every shape, rotation and point", "why_tests_cant": "Only some rotation angles and some points show the error.", "anchors": ["packages/mccomposite/lib/geometry/visitors/BoundingBoxMaker.cc: visit(const Rotation*)"]}
{"id": "C76", "title": "A path through the interior of a block is reported to cross it", "statement": "The intersection times of a path that passes through the interior of a block are never empty.", "quantifier": "every block and path", "why_tests_cant": "The failing paths have measure zero but are typical of aligned set-ups (beam through an edge).", "anchors": ["packages/mccomposite/lib/geometry/visitors/ArrowIntersector.cc: intersectRectangle, visit(const Box*)"]}
{"id": "C77", "title": "An object ahead is found", "statement": "For a list of objects that do not overlap and a path that starts outside of all of them and enters the interior of one, the first-hit search reports an object.", "quantifier": "every list of shapes and every path", "why_tests_cant": "Depends on coincidences of surfaces along the path.", "anchors": ["packages/mccomposite/lib/geometry/intersect.icc: find_1st_hit, find_shape_containing_point"]}
{"id": "C78", "title": "Propagation out of a shape is forward in time", "statement": "Propagating a neutron out of a shape never moves it backward in time.", "quantifier": "every shape and every neutron state", "why_tests_cant": "The violation needs a neutron that already left the shape but whose line of flight crosses it.", "anchors": ["packages/mccomposite/lib/mccomposite/neutron_propagation.h: propagate_out"]}
{"id": "C79", "title": "Multiple scattering mode absorbs at the place of absorption", "statement": "In the multiple scattering mode the expectation of any observable over the absorbed neutrons handed to the kernel (e.g. recorded position and time of flight in a detector tube) is the integral of p*mu*exp(-(mu+sigma)*x) times the observable along the path, as in the single mode.", "quantifier": "every shape, kernel, neutron and observable", "why_tests_cant": "A statement on expectations of arbitrary observables.", "anchors": ["packages/mccomponents/lib/homogeneous_scatterer/HomogeneousNeutronScatterer.cc: _interactM1"]}
{"id": "C80", "title": "A channel with zero weight is never chosen", "statement": "For non-negative weights that are not all zero, the channel chosen by the random number has a positive weight (so that the division by the weight is defined).", "quantifier": "every weights and every value of the random number generator, including the ends", "why_tests_cant": "One value of the generator in 2^31.", "anchors": ["packages/mccomponents/lib/homogeneous_scatterer/HomogeneousNeutronScatterer.cc: interact_path1", "packages/mccomponents/lib/math/random.cc: random"]}
{"id": "C81", "title": "Attenuation in a composite accounts for where its constituents are", "statement": "The attenuation of a flight between two points of a composite is the product of the attenuations of that flight in the constituents as they are placed.", "quantifier": "every list of homogeneous constituents, placements and flights", "why_tests_cant": "Continuum of placements; with constituents at the origin nothing shows.", "anchors": ["packages/mccomposite/lib/mccomposite/CompositeNeutronScatterer_Impl.cc: calculate_attenuation"]}
{"id": "C82", "title": "A composite may be a constituent of a composite", "statement": "A composite scatterer can be used as a constituent of another composite: it interacts and attenuates as its constituents do.", "quantifier": "every nesting", "why_tests_cant": "Undefined behaviour shows or not depending on the compiler.", "anchors": ["packages/mccomposite/lib/mccomposite/CompositeNeutronScatterer.cc: interact_path1, interactM_path1, calculate_attenuation", "packages/mccomposite/lib/mccomposite/AbstractNeutronScatterer.cc: calculate_attenuation"]}
{"id": "C83", "title": "The result of a stand-alone scatterer is determined by its inputs", "statement": "The multiple scattering mode of a scatterer that is not in a composite does not depend on anything but the scatterer, the neutron and the random numbers.", "quantifier": "every scatterer and neutron", "why_tests_cant": "Content of uninitialised memory.", "anchors": ["packages/mccomposite/lib/mccomposite/AbstractNeutronScatterer.cc: scatterM", "packages/mccomposite/lib/mccomposite/CompositeNeutronScatterer_Impl.cc: CompositeNeutronScatterer_Impl, scatterM"]}
{"id": "C84", "title": "The overlap check looks at the constituents where they are", "statement": "The check for overlapping constituents reports no overlap if the constituents as placed are apart, and can report one if they are at the same place.", "quantifier": "every list of shapes, placements and random numbers", "why_tests_cant": "Continuum of placements, random sampling.", "anchors": ["packages/mccomposite/lib/mccomposite/CompositeNeutronScatterer.cc: checkShapeOverlap", "packages/mccomposite/lib/geometry/overlap.cc: hasOverlap"]}
{"id": "C85", "title": "The overlap check notices nested shapes", "statement": "If one constituent lies inside of another one, there are random numbers for which the overlap check reports it.", "quantifier": "every list of shapes, in any order", "why_tests_cant": "No number of random samples shows that none can.", "anchors": ["packages/mccomposite/lib/mccomposite/CompositeNeutronScatterer.cc: checkShapeOverlap", "packages/mccomposite/lib/geometry/overlap.cc: hasOverlap"]}
{"id": "C86", "title": "In the multiple scattering mode every constituent on the path takes part", "statement": "A neutron that goes through one constituent of a composite, and has another constituent ahead, interacts with the second one too, with the loop limits set by the constructor.", "quantifier": "every composite of transparent constituents, every neutron", "why_tests_cant": "Weights and loop limits hide the missing contribution.", "anchors": ["packages/mccomposite/lib/mccomposite/CompositeNeutronScatterer.cc: CompositeNeutronScatterer", "packages/mccomposite/lib/mccomposite/CompositeNeutronScatterer_Impl.cc: interactM_path1, scatterM"]}
{"id": "C87", "title": "The weight given to a kernel is the one used", "statement": "In a container of kernels every kernel is selected in proportion to the weight given by the user; one of weight 0 is never selected.", "quantifier": "every list of kernels with optional weights", "why_tests_cant": "All lists; a zero weight is silently replaced.", "anchors": ["packages/mccomponents/python/mccomponents/homogeneous_scatterer/KernelComputationEngineRenderer.py: onCompositeKernel", "packages/mccomponents/lib/homogeneous_scatterer/CompositeScatteringKernel.cc: select_kernel"]}
{"id": "C88", "title": "Mean factor applied by a composite kernel equals its scattering coefficient", "statement": "If every constituent multiplies the probability by its scattering coefficient, so does the composite kernel on average, with and without averaging and with a kernel of total scattering.", "quantifier": "every list of such kernels, weights, flags", "why_tests_cant": "Expectation over a continuum of random numbers, all lists.", "anchors": ["packages/mccomponents/lib/homogeneous_scatterer/CompositeScatteringKernel.cc: scattering_coefficient, scatter", "packages/mccomponents/lib/homogeneous_scatterer/AbstractScatteringKernel.h"]}
{"id": "C89", "title": "Absorption coefficient of a composite kernel", "statement": "The absorption coefficient is the sum of those of the constituents, or their mean if an average is requested.", "quantifier": "every list of kernels and both values of the flag", "why_tests_cant": "All lists.", "anchors": ["packages/mccomponents/lib/homogeneous_scatterer/CompositeScatteringKernel.cc: absorption_coefficient", "packages/mccomponents/lib/homogeneous_scatterer/CompositeScatteringKernel.h"]}
{"id": "C90", "title": "Coefficients of a rotated kernel belong to the frame of the kernel", "statement": "The scattering coefficient of a kernel with an orientation is the one of the kernel for the neutron as seen in the frame of the kernel, as it is for scattering.", "quantifier": "every kernel, rotation and neutron", "why_tests_cant": "Only differs for kernels that depend on the direction.", "anchors": ["packages/mccomponents/lib/homogeneous_scatterer/CompositeScatteringKernel.cc: scattering_coefficient, tosubkernel"]}
{"id": "C91", "title": "Energy focusing stays in its window", "statement": "A neutron that leaves the energy focusing S(Q,E) kernel with positive weight has a final energy within the window asked for and an energy transfer in the range of the kernel; the weight is never negative.", "quantifier": "every kernel, window, neutron and triple of random numbers", "why_tests_cant": "Continuum; windows that only partly overlap the range of the kernel.", "anchors": ["packages/mccomponents/lib/kernels/sample/SQE_EnergyFocusing_Kernel.cc: S"]}
{"id": "C92", "title": "A neutron that a kernel cannot scatter does not appear in the scattered beam", "statement": "When no energy and momentum transfer in the range of a kernel is possible for a neutron, the neutron leaves the kernel with weight zero or marked as lost.", "quantifier": "every kernel range and every neutron", "why_tests_cant": "Such neutrons look like ordinary ones in the results; only their origin is wrong.", "anchors": ["packages/mccomponents/lib/kernels/sample/SQEkernel.cc: S", "packages/mccomponents/lib/kernels/sample/SQkernel.cc: S", "packages/mccomponents/lib/kernels/sample/E_Q_Kernel.icc: S", "packages/mccomponents/lib/kernels/sample/ConstantQEKernel.cc: S", "packages/mccomponents/lib/kernels/KernelBase.h: scatter"]}
{"id": "C93", "title": "Expected weight of the E(Q) kernel", "statement": "The expected weight of neutrons scattered by a kernel with dispersion E(Q) is the integral of S(Q) Q over the possible Q, however many trials are needed to find a possible Q.", "quantifier": "every dispersion, structure factor, range of Q and neutron; expectation over 100 random numbers", "why_tests_cant": "An expectation; the bias is a smooth factor that no single event shows.", "anchors": ["packages/mccomponents/lib/kernels/sample/E_Q_Kernel.icc: S"]}
{"id": "C94", "title": "Expected weight of scattering kernels", "statement": "For every observable the expected weight of neutrons scattered by the S(Q,E) kernel is the integral of S(Q,E) Q over the range of the kernel that kinematics allows; the isotropic and S(Q vector) kernels distribute the weight evenly over the sphere of directions.", "quantifier": "every structure factor, range, observable and neutron; expectation over all random numbers", "why_tests_cant": "Integral over three continuous random variables for all functions.", "anchors": ["packages/mccomponents/lib/kernels/sample/SQEkernel.cc: S", "packages/mccomponents/lib/kernels/IsotropicKernel.cc: S", "packages/mccomponents/lib/kernels/sample/SvQkernel.cc: S"]}
{"id": "C95", "title": "Change of variables from time of flight to energy", "statement": "The weight of the resolution kernel contains the derivative of the final energy with respect to the time of arrival for the flight that is made.", "quantifier": "every target, time window and neutron, whenever it is scattered", "why_tests_cant": "Off by a smooth factor unless the neutron is at the sample at time 0.", "anchors": ["packages/mccomponents/lib/kernels/sample/DGSSXResKernel.cc: S"]}
{"id": "C96", "title": "Dispersion surface kernel: on the surface or untouched", "statement": "After scattering by a kernel with dispersion E(Q vector), either energy and momentum transfer lie on the dispersion surface, or the neutron is unchanged or lost.", "quantifier": "every dispersion, list of roots and neutron", "why_tests_cant": "Happens only where the root finder returns a false root.", "anchors": ["packages/mccomponents/lib/kernels/sample/E_vQ_Kernel.icc: S"]}
{"id": "C97", "title": "Scattering coefficient in the weight belongs to the incident neutron", "statement": "The weight of a scattered neutron contains the scattering coefficient of the neutron before scattering.", "quantifier": "every kernel based on KernelBase, coefficient function and neutron", "why_tests_cant": "Invisible for constant coefficients.", "anchors": ["packages/mccomponents/lib/kernels/KernelBase.h: scatter"]}
{"id": "C98", "title": "Rotating a vector about an axis", "statement": "Rotating a vector about an axis keeps its length and its projection on the axis, and gives the vector rotated by the angle.", "quantifier": "every vector, axis and angle", "why_tests_cant": "Continuum; the tolerance matters only for vectors close to the axis.", "anchors": ["packages/mcni/lib/geometry/utils.icc: rotate"]}
{"id": "C99", "title": "Line width does not change the intensity of a powder peak", "statement": "The expected weight of neutrons scattered by the powder kernel is the scattering coefficient, whatever the relative widths of the lines are.", "quantifier": "every list of peaks with widths and every neutron; expectation over the random numbers", "why_tests_cant": "Only neutrons close to the limit of a peak are affected; an expectation.", "anchors": ["packages/mccomponents/lib/kernels/sample/diffraction/SimplePowderDiffractionKernel.cc: scatter, scattering_coefficient"]}
{"id": "C100", "title": "Focusing of powder diffraction does not change the intensity", "statement": "With focusing all neutrons are scattered into the vertical acceptance asked for, and the expected weight inside of the acceptance is the same as without focusing.", "quantifier": "every list of peaks, acceptance and neutron; expectation over the random number", "why_tests_cant": "A smooth factor in the intensity that depends on the scattering angle.", "anchors": ["packages/mccomponents/lib/kernels/sample/diffraction/SimplePowderDiffractionKernel.cc: scatter, scattering_coefficient"]}
{"id": "C101", "title": "Multiple scattering inside a sample loses and duplicates nothing", "statement": "In the multiple scattering mode every neutron created inside of a sample is followed exactly once with a random number of its own, dropped only below the probability thresholds, and every neutron that leaves or is left over is returned exactly once; a neutron returned inside of the sample was cut off by the limit on the number of loops.", "quantifier": "every scatterer, kernel with state, stream of random numbers, neutron and limit", "why_tests_cant": "Trees of neutrons of any depth; all kernels.", "anchors": ["packages/mccomponents/lib/homogeneous_scatterer/HomogeneousNeutronScatterer.cc: interactM_path1, _interactM1"]}
{"id": "C102", "title": "A packing factor means diluted material", "statement": "A sample with a packing factor behaves like a solid sample whose absorption and scattering coefficients are smaller by that factor, for attenuation, single and multiple scattering.", "quantifier": "every scatterer, neutron and random numbers", "why_tests_cant": "The factor enters in several places of the code, and forgetting one of them looks like a different density.", "anchors": ["packages/mccomponents/lib/homogeneous_scatterer/HomogeneousNeutronScatterer.cc: interact_path1, _interactM1, calculate_attenuation, mu"]}
{"id": "C103", "title": "Absorption curve is interpolated linearly", "statement": "An absorption coefficient given as a curve is, at every energy, on the straight line between the two neighbouring points, exact at every point, constant outside of the energies given, and never outside of the range of the values; curves that are not strictly increasing in energy are rejected.", "quantifier": "every table, every energy", "why_tests_cant": "Continuum of energies; the search used treats the last entry wrongly (C39) and the interpolation must not inherit this.", "anchors": ["packages/mccomponents/lib/homogeneous_scatterer/InterpolateAbsorptionFromCurve.cc", "packages/mccomponents/lib/math/search.icc: find_1st_bin_larger_than"]}
{"id": "C104", "title": "The last plane of a grid", "statement": "Interpolating gridded data at the last point of an axis gives the data there.", "quantifier": "every grid and data", "why_tests_cant": "Only a set of measure zero of the query points is concerned, but it contains the zone boundary of a phonon grid.", "anchors": ["packages/mccomponents/lib/kernels/sample/phonon/LinearlyInterpolatedGridData_1D.icc", "packages/mccomponents/lib/kernels/sample/phonon/LinearlyInterpolatedGridData_3D.icc: value2index_and_remainder", "packages/mccomponents/lib/kernels/sample/phonon/NNGridData_3D.icc"]}
{"id": "C105", "title": "A dispersion given on a grid is defined everywhere and agrees with its data", "statement": "A dispersion made from tables on a grid of the reciprocal cell has an energy for every Q and branch; it is between the minimum and maximum reported for the branch, which are energies of the table; it is the energy of the table at the points of the grid, in every cell; linear data is reproduced between them; the polarisation is the one of the table at a point within half a step, up to a lattice vector.", "quantifier": "every lattice, grid, table, Q and branch", "why_tests_cant": "Continuum of Q; the wrap-around at the zone boundary and the index arithmetic of branches and atoms.", "anchors": ["packages/mccomponents/python/mccomponents/sample/phonon/__init__.py: periodicdispersion_fromidf", "packages/mccomponents/python/mccomponents/sample/phonon/bindings/BoostPythonBinding.py", "packages/mccomponents/lib/kernels/sample/phonon/LinearlyInterpolatedDispersionOnGrid_3D.icc", "packages/mccomponents/lib/kernels/sample/phonon/LinearlyInterpolatedPolarizationOnGrid_3D.icc", "packages/mccomponents/lib/kernels/sample/phonon/PeriodicDispersion_3D.cc"]}
{"id": "C106", "title": "Any valid density of states is accepted", "statement": "A density of states given by at least two non-negative values at ascending non-negative energies, not all zero, is accepted.", "quantifier": "every sampled data set", "why_tests_cant": "The failing inputs are read past the end of the array, or end the program; which data is affected is not visible from the interface.", "anchors": ["packages/mccomponents/lib/kernels/sample/phonon/LinearlyInterpolatedDOS.icc: _compute_sod"]}
{"id": "C107", "title": "The density of states is normalised", "statement": "The integral over energy of the density of states made from a table is one.", "quantifier": "every sampled data set", "why_tests_cant": "An integral over a continuum; the error is half of the first and the last value, invisible for data that ends with zero.", "anchors": ["packages/mccomponents/lib/kernels/sample/phonon/LinearlyInterpolatedDOS.icc", "packages/mccomponents/lib/kernels/sample/phonon/AbstractDOS.h"]}
{"id": "C108", "title": "Bose factor obeys detailed balance", "statement": "The thermal factor for gaining an energy E is exp(-E/kT) times the one for losing it, their difference is one, and at temperature zero energy can only be lost.", "quantifier": "every energy and temperature", "why_tests_cant": "An identity over a continuum of energies and temperatures.", "anchors": ["packages/mccomponents/lib/kernels/sample/phonon/utils.cc: phonon_bose_factor", "packages/mccomponents/lib/physics/statistics.cc: BoseEinsteinDistribution"]}
{"id": "C109", "title": "Debye-Waller factor from a density of states", "statement": "The Debye-Waller coefficient is hbar^2/2M times the integral of Z(w) coth(w/2kT)/w by the trapezoidal rule (exact for a linear integrand), so that the factor exp(-2W) is between 0 and 1 and decreases with temperature.", "quantifier": "every density of states, mass, temperature and number of sampling points", "why_tests_cant": "Continuum of data; the treatment of energy zero is only right for densities of states that start there.", "anchors": ["packages/mccomponents/lib/kernels/sample/phonon/DWFromDOS.icc: calc_DW_core, DW"]}
{"id": "C110", "title": "Incoherent elastic scattering is elastic and carries the Debye-Waller factor", "statement": "The incoherent elastic kernel keeps the energy of the neutron, its place and time; the weight is spread over all directions like the Debye-Waller factor exp(-2W(Q)), so the expected weight is (1-exp(-4 d k^2))/(4 d k^2).", "quantifier": "every velocity, Debye-Waller coefficient and observable of energy loss and momentum transfer; expectation over the random numbers", "why_tests_cant": "Expectation over a continuum; the failing directions are a thin cone around the beam axis, where most neutrons fly.", "anchors": ["packages/mccomponents/lib/kernels/sample/phonon/IncoherentElastic.cc: S"]}
{"id": "C111", "title": "Incoherent one-phonon scattering samples the cross section", "statement": "The expected value of any observable of the scattered neutron is its integral over all directions and final energies with the one-phonon cross section (k'/k) exp(-2W) E_Q/M Z(|w|)/(w(1-exp(-w/kT))); final energies are never further from the initial energy than the largest phonon energy.", "quantifier": "every density of states, temperature, mass, Debye-Waller function, neutron and observable", "why_tests_cant": "An integral over three continuous random numbers; a wrong sampling range only shows as a scale.", "anchors": ["packages/mccomponents/lib/kernels/sample/phonon/IncoherentInelastic.cc: S, pick_Ef", "packages/mccomponents/lib/math/random/geometry.cc: choose_direction"]}
{"id": "C112", "title": "Phonon scattering is in detailed balance", "statement": "For neutrons in thermal equilibrium with the sample the incoherent inelastic kernel scatters as much from any velocity a to b as from b to a.", "quantifier": "every pair of velocities, density of states and temperature", "why_tests_cant": "An identity between two runs of the kernel for a continuum of pairs.", "anchors": ["packages/mccomponents/lib/kernels/sample/phonon/IncoherentInelastic.cc: S", "packages/mccomponents/lib/kernels/sample/phonon/utils.cc: phonon_bose_factor"]}
{"id": "C113", "title": "Recoil energy uses the mass of the atom in atomic mass units", "statement": "The weight of incoherent one-phonon scattering contains the recoil energy (hbar Q)^2/2M for the mass M given in atomic mass units.", "quantifier": "every neutron and kernel", "why_tests_cant": "The deviation is one percent and the same for all neutrons, below the statistics of a test.", "anchors": ["packages/mccomponents/lib/kernels/sample/phonon/IncoherentInelastic.cc: S", "packages/mcni/lib/neutron/units_conversion.cc: k2E"]}
{"id": "C114", "title": "Energy focusing only restricts the range of final energies", "statement": "The energy focusing kernel scatters into the window of final energies, and there as the full kernel does, with the weight scaled by the ratio of the sampled ranges.", "quantifier": "every window, neutron and random numbers", "why_tests_cant": "Windows on the energy gain side and at the elastic line behave differently from those tested.", "anchors": ["packages/mccomponents/lib/kernels/sample/phonon/IncoherentInelastic_EnergyFocusing.cc: S, pick_Ef"]}
{"id": "C115", "title": "Several kinds of atoms", "statement": "For a unit cell with several atoms the incoherent one-phonon weight is the sum over the atoms of cross section over mass.", "quantifier": "every list of atoms", "why_tests_cant": "The examples have one kind of atoms, for which both formulas agree.", "anchors": ["packages/mccomponents/lib/kernels/sample/phonon/IncoherentInelastic.cc: get_mass_and_xs", "packages/mccomponents/lib/kernels/sample/phonon/IncoherentInelastic_EnergyFocusing.cc: get_mass_and_xs"]}
{"id": "C116", "title": "Multiphonon spectra are in detailed balance", "statement": "In the spectra of all orders, and in their sum at each Q, gaining an energy E is less likely than losing it by the factor exp(-E/kT).", "quantifier": "every density of states on a uniform axis, temperature, order, Q and energy", "why_tests_cant": "An identity between all pairs of elements of arrays of any length and for every order of convolution.", "anchors": ["packages/mccomponents/python/mccomponents/sample/phonon/multiphonon.py: computeA1E, AnE_from_n_1, sqe"]}
{"id": "C117", "title": "The one-phonon spectrum is normalised", "statement": "The one-phonon spectrum adds up to one over the energies.", "quantifier": "every density of states and temperature", "why_tests_cant": "The deviation depends on the first two points of the density of states and vanishes for fine axes.", "anchors": ["packages/mccomponents/python/mccomponents/sample/phonon/multiphonon.py: computeA1E, gamma0"]}
{"id": "C118", "title": "Multiphonon orders are weighted by a Poisson distribution", "statement": "The result at each Q and energy is the sum over the wanted orders of the spectrum times (2W)^n exp(-2W)/n!; the integral over the energies is the sum of these weights, which is at most one; the axis of energies is symmetric.", "quantifier": "every density of states, mass, temperature, list of Q values and range of orders", "why_tests_cant": "Sums over all orders and energies for every Q.", "anchors": ["packages/mccomponents/python/mccomponents/sample/phonon/multiphonon.py: sqe, iterSQESet, computeSNQ, DWExp, recoilE"]}
{"id": "C119", "title": "Multiphonon spectra exist and are not negative", "statement": "For every density of states that is not negative, the spectra of all orders exist and are not negative.", "quantifier": "every density of states, temperature and order", "why_tests_cant": "The failing densities of states have a gap at low energies; those in the tests start like a parabola.", "anchors": ["packages/mccomponents/python/mccomponents/sample/phonon/multiphonon.py: computeA1E, gamma0"]}
{"id": "C120", "title": "Roots have the requested accuracy", "statement": "Every value returned by the root finder is within the requested accuracy of a root.", "quantifier": "every continuous function, interval, accuracy and number of sub-intervals", "why_tests_cant": "The stopping rule compares two successive guesses; tests use functions for which Ridder's method converges at once.", "anchors": ["packages/mccomponents/lib/math/rootfinding.cc: zridd"]}
{"id": "C121", "title": "No root is returned twice", "statement": "The values returned by the root finder are strictly increasing.", "quantifier": "every function, interval, accuracy and number of sub-intervals", "why_tests_cant": "Only functions with a root exactly at a point of the sampling grid are concerned; the kernels multiply the weight by the number of roots, so such a root counts twice.", "anchors": ["packages/mccomponents/lib/math/rootfinding.cc: FindRootsEvenly::solve", "packages/mccomponents/lib/kernels/sample/E_vQ_Kernel.icc: S"]}
{"id": "C122", "title": "Single crystal phonon scattering conserves energy and momentum", "statement": "A neutron scattered by the single crystal phonon kernel keeps place and time; it is left alone, or flies on in one of the directions tried with at most twice its speed, and within one step of the search for speeds there is a speed for which energy and wave vector change exactly by those of a phonon of the dispersion.", "quantifier": "every continuous dispersion, neutron, list of directions and random numbers, and number of search steps", "why_tests_cant": "A statement about every neutron and direction for an arbitrary dispersion surface; tests look at histograms.", "anchors": ["packages/mccomponents/lib/kernels/sample/phonon/CoherentInelastic_SingleXtal.cc: pick_a_final_state, pick_v_f", "packages/mccomponents/lib/kernels/sample/phonon/Omega_minus_deltaE.cc: evaluate", "packages/mccomponents/lib/math/rootfinding.cc: FindRootsEvenly::solve"]}
{"id": "C123", "title": "Single crystal phonon scattering samples the one-phonon cross section", "statement": "For a direction in which every branch has a solution, the expected value of any observable of the final velocity is the sum over branches and solutions of its value times the coherent one-phonon cross section of the mode.", "quantifier": "every crystal, temperature, neutron, direction and observable; expectation over the choice of branch and solution", "why_tests_cant": "Expectation over random choices; a forgotten factor for the number of branches or solutions only shows in the absolute scale.", "anchors": ["packages/mccomponents/lib/kernels/sample/phonon/CoherentInelastic_SingleXtal.cc: pick_a_final_state, pick_v_f", "packages/mccomponents/lib/kernels/sample/phonon/scattering_length.icc: sum_of_scattering_length", "packages/mccomponents/lib/kernels/sample/phonon/utils.cc: phonon_bose_factor"]}
{"id": "C124", "title": "Directions without a solution count as such", "statement": "When a direction is drawn in which no phonon can scatter the neutron, the weight of the result accounts for it.", "quantifier": "every crystal and neutron", "why_tests_cant": "The kernel draws again without a trace in the result; only the absolute intensity is wrong.", "anchors": ["packages/mccomponents/lib/kernels/sample/phonon/CoherentInelastic_SingleXtal.cc: pick_a_final_state"]}
{"id": "C125", "title": "A neutron that cannot be scattered is not counted as scattered", "statement": "If no solution is found the neutron is not returned as a scattered one with its full weight.", "quantifier": "every crystal, neutron and list of directions", "why_tests_cant": "Needs one hundred failures in a row.", "anchors": ["packages/mccomponents/lib/kernels/sample/phonon/CoherentInelastic_SingleXtal.cc: pick_a_final_state"]}
{"id": "C126", "title": "All phonon branches take part in the scattering", "statement": "Every branch of the dispersion by which the neutron can be scattered, with gain or loss of energy, can be drawn.", "quantifier": "every dispersion and neutron energy", "why_tests_cant": "Only neutrons slow compared to the optical branches are concerned; the examples use acoustic branches and fast neutrons.", "anchors": ["packages/mccomponents/lib/kernels/sample/phonon/CoherentInelastic_SingleXtal.cc: pick_a_final_state", "packages/mccomponents/lib/math/random.cc: random"]}
{"id": "C127", "title": "The structure factor of a phonon does not depend on conventions", "statement": "The strength of the wave scattered by a phonon does not depend on the origin of the unit cell nor on phase and scale of the polarization vectors, and for one atom in the cell it is b^2/M times the squared projection of Q on the polarization.", "quantifier": "every number of atoms, positions, polarization vectors and Q", "why_tests_cant": "Invariance under continuous groups for all crystals.", "anchors": ["packages/mccomponents/lib/kernels/sample/phonon/scattering_length.icc: sum_of_scattering_length"]}
{"id": "C128", "title": "The amplitudes of the atoms enter the structure factor", "statement": "The wave scattered by a phonon is the sum over the atoms with their amplitudes in the mode; atoms at rest do not contribute.", "quantifier": "every number of atoms and polarization vectors", "why_tests_cant": "The examples have one atom in the cell or equivalent atoms.", "anchors": ["packages/mccomponents/lib/kernels/sample/phonon/scattering_length.icc: sum_of_scattering_length"]}
{"id": "C129", "title": "The sign of scattering lengths is kept", "statement": "The coherent scattering length given to the kernels is that of the element.", "quantifier": "every scattering length", "why_tests_cant": "The examples use elements with positive scattering length.", "anchors": ["packages/mccomponents/python/mccomponents/sample/phonon/bindings/BoostPythonBinding.py: atomicscatterer_fromSite"]}
{"id": "C130", "title": "Powder phonon scattering conserves energy and momentum", "statement": "A neutron scattered by the polycrystal phonon kernel keeps place and time, its energy changes by that of a phonon and its wave vector by the length of the wave vector of that phonon; a phonon is created only if the neutron has the energy.", "quantifier": "every dispersion, neutron and sequence of random momentum transfers", "why_tests_cant": "The fault needs a momentum transfer close to a lattice point right after one that was rejected, or in the first round, where memory that was never set is read.", "anchors": ["packages/mccomponents/lib/kernels/sample/phonon/CoherentInelastic_PolyXtal.cc: S, pick_a_valid_Q_vector, pick_Ef, pick_v_f"]}
{"id": "C131", "title": "Powder phonon scattering counts the possible final energies", "statement": "The weight is that of one-phonon scattering times the number of branches and the number of final energies that were to choose from.", "quantifier": "every crystal, neutron and random numbers", "why_tests_cant": "Concerns only phonons with more energy than the neutron; the tests use fast neutrons.", "anchors": ["packages/mccomponents/lib/kernels/sample/phonon/CoherentInelastic_PolyXtal.cc: S, pick_Ef"]}
{"id": "C132", "title": "The weight of powder phonon scattering does not depend on the sampling range", "statement": "As long as the largest phonon energy given to the kernel is above all phonon energies, the weight of a scattering process does not depend on it.", "quantifier": "every crystal, neutron and momentum transfer", "why_tests_cant": "An absolute scale; it needs two runs with different settings.", "anchors": ["packages/mccomponents/lib/kernels/sample/phonon/CoherentInelastic_PolyXtal.cc: calc_AccessibleReciVol, pickQ"]}
{"id": "C133", "title": "Single-crystal Bragg scattering is elastic", "statement": "A neutron scattered by a reflection keeps its place, time, spin and speed; a neutron for which no reflection is near is returned with the weight -1 and otherwise unchanged.", "quantifier": "every crystal, neutron and random numbers", "why_tests_cant": "All orientations of wave vector, lattice vector and tangential plane, including those along the axes, where the perpendicular vectors are chosen by case.", "anchors": ["packages/mccomponents/lib/kernels/sample/diffraction/SingleCrystalDiffractionKernel.cc: scatter, normal_vec"]}
{"id": "C134", "title": "Bragg scattering samples the mosaic distribution on the Ewald sphere", "statement": "The direction of the scattered neutron is that of a wave vector on the tangential plane of the Ewald sphere, which is an affine image of the two random numbers that covers the plane; the exponent of the three dimensional normal distribution of lattice vectors there equals half the sum of squares of the random numbers up to a constant.", "quantifier": "every crystal, neutron, reflection and random numbers", "why_tests_cant": "A distribution; the factorisation of the covariance must hold for all geometries.", "anchors": ["packages/mccomponents/lib/kernels/sample/diffraction/SingleCrystalDiffractionKernel.cc: setup_tau_info_list, scatter"]}
{"id": "C135", "title": "The reflectivity is the density of lattice vectors on the Ewald sphere", "statement": "The reflectivity of a reflection is (2 pi)^3/(V0 k^2) times the integral of the normal density of lattice vectors over the tangential plane, and the cross section is that times F^2 in barn.", "quantifier": "every crystal, neutron and reflection", "why_tests_cant": "An integral over a plane in closed form, for all geometries.", "anchors": ["packages/mccomponents/lib/kernels/sample/diffraction/SingleCrystalDiffractionKernel.cc: setup_tau_info_list, Details"]}
{"id": "C136", "title": "No reflection near the Ewald sphere is lost", "statement": "The reflections considered for a neutron are exactly those of the list with non-zero strength whose lattice vector is within five widths of its condition.", "quantifier": "every crystal, list of reflections and neutron", "why_tests_cant": "The lost ones are at the end of a sorted list and depend on the ratio of two parameters.", "anchors": ["packages/mccomponents/lib/kernels/sample/diffraction/SingleCrystalDiffractionKernel.cc: setup_tau_info_list", "packages/mccomponents/python/mccomponents/sample/diffraction/bindings/BoostPythonBinding.py: singlecrystaldiffractionkernel"]}
{"id": "C137", "title": "Bragg scattering does not depend on earlier neutrons", "statement": "What the kernel returns for a neutron is the same after any sequence of calls as for a new kernel.", "quantifier": "every crystal and sequence of calls", "why_tests_cant": "The list of reflections is cached for the last velocity; all sequences of calls.", "anchors": ["packages/mccomponents/lib/kernels/sample/diffraction/SingleCrystalDiffractionKernel.cc: setup_tau_info_list, scatter, scattering_coefficient"]}
{"id": "C138", "title": "Normally distributed random numbers", "statement": "The random numbers of normal_distrib_rand have the normal distribution with mean 0 and variance 1, and the loop that makes them ends with probability 1.", "quantifier": "every bounded measurable observable and number of rounds", "why_tests_cant": "A distribution over the reals; a test can only sample it.", "anchors": ["packages/mccomponents/lib/math/random/gaussian.cc: normal_distrib_rand"]}
{"id": "C139", "title": "Lorentz distributed random numbers", "statement": "The random numbers of lorentzian_distrib_rand have the Lorentz distribution of half width 1.", "quantifier": "every observable", "why_tests_cant": "A distribution with heavy tails whose mean does not exist; samples converge badly.", "anchors": ["packages/mccomponents/lib/math/random/lorentzian.cc: lorentzian_distrib_rand"]}
{"id": "C140", "title": "Random directions towards a target are uniformly distributed over the cone", "statement": "Given a target position and radius, choose_direction returns directions that are uniformly distributed over the cone that the target is seen under, with the length of the target vector, and the solid angle of the cone.", "quantifier": "every target vector and radius", "why_tests_cant": "The distribution over a continuum of directions; it fails only for narrow cones.", "anchors": ["packages/mccomponents/lib/math/random/geometry.cc: choose_direction", "packages/mcni/lib/geometry/utils.icc: rotate"]}
{"id": "C141", "title": "Scattering by a broadened dispersion curve follows the curve", "statement": "A neutron that is scattered has a momentum transfer in the range of the kernel and the energy transfer of the curve plus a deviation of the given distribution times the width there; position, time and polarization are kept.", "quantifier": "every curve, width, neutron and random numbers", "why_tests_cant": "All curves and all outcomes of a rejection loop of 100 rounds.", "anchors": ["packages/mccomponents/lib/kernels/sample/Broadened_E_Q_Kernel.icc: S", "packages/mccomponents/lib/kernels/sample/LorentzianBroadened_E_Q_Kernel.icc: S"]}
{"id": "C142", "title": "The intensity of a broadened dispersion curve is right", "statement": "The expected weight times any observable of the transfer is the integral over momentum and energy transfer of S(Q) w(E-E(Q)) Q/(2 ki^2), where w is the normal or Lorentz density with the width of the kernel.", "quantifier": "every curve, width, bounded observable and neutron", "why_tests_cant": "An expectation over 200 random numbers.", "anchors": ["packages/mccomponents/lib/kernels/sample/Broadened_E_Q_Kernel.icc: S", "packages/mccomponents/lib/kernels/sample/LorentzianBroadened_E_Q_Kernel.icc: S"]}
{"id": "C143", "title": "A broadened dispersion curve passes no neutrons unscattered", "statement": "Whenever the curve has intensity for a neutron, a neutron that is returned by S is a scattered one.", "quantifier": "every curve, width, neutron and random numbers", "why_tests_cant": "Concerns slow neutrons and outcomes of 100 rounds in a row.", "anchors": ["packages/mccomponents/lib/kernels/sample/Broadened_E_Q_Kernel.icc: S", "packages/mccomponents/lib/kernels/sample/LorentzianBroadened_E_Q_Kernel.icc: S"]}
{"id": "C144", "title": "Small angle scattering by spheres is elastic", "statement": "The kernel keeps energy, position, time and polarization, the scattering angle is at most the maximal angle, and its cosine is distributed uniformly.", "quantifier": "every kernel, neutron and random numbers", "why_tests_cant": "A continuum of directions; the exception has probability 1/RAND_MAX.", "anchors": ["packages/mccomponents/lib/kernels/sample/SANS/SpheresKernel.cc: S"]}
{"id": "C145", "title": "Small angle scattering by spheres has the intensity of the form factor", "statement": "Scattering coefficient times expected weight, with any observable of the momentum transfer, is the integral over the directions within the maximal angle of the differential cross section phi V drho^2 f(qR)^2.", "quantifier": "every kernel, neutron and observable", "why_tests_cant": "An integral that contains the absolute scale.", "anchors": ["packages/mccomponents/lib/kernels/sample/SANS/SpheresKernel.cc: S, scattering_coefficient"]}
{"id": "C146", "title": "The scattering coefficient of spheres is their total cross section", "statement": "The scattering coefficient is the integral of the differential cross section over all directions.", "quantifier": "every kernel and neutron", "why_tests_cant": "An integral in closed form; the difference depends on wavelength and radius.", "anchors": ["packages/mccomponents/lib/kernels/sample/SANS/SpheresKernel.cc: scattering_coefficient"]}
{"id": "C147", "title": "A listed component can be obtained", "statement": "Every component in the list of a registry of mcni can be obtained from it, registered components are listed and handed out, and later requests give the same component.", "quantifier": "every set of repositories and sequence of requests", "why_tests_cant": "Depends on what several repositories contain together.", "anchors": ["packages/mcni/python/mcni/components/RegistryBase.py: listallcomponents, getFactory, _getStaticComponentList, _getStaticComponent"]}
{"id": "C148", "title": "Histograms S(Q,E) round trip through idf files", "statement": "A histogram S(Q,E) that is written by writeSQE is read by readSQE with the same axes, values and errors.", "quantifier": "every histogram with two axes", "why_tests_cant": "All sizes; the order of the axes.", "anchors": ["packages/mccomponents/python/mccomponents/sample/idf/__init__.py: readSQE, writeSQE"]}
{"id": "C149", "title": "Each reflection is counted once", "statement": "In the list of reflections of a powder, the sum over the list of multiplicity times squared structure factor, with any function of the momentum transfer, is the sum over all reflections with indexes up to the maximum; the list for a single crystal has each reflection once.", "quantifier": "every crystal, symmetry group, maximal index and function", "why_tests_cant": "Depends on the symmetry group; needs a sum over orbits of a group.", "anchors": ["packages/mccomponents/python/mccomponents/sample/diffraction/calcpeaks.py: iter_peaks, multiplicity, equivalent_hkls"]}
{"id": "C150", "title": "Reflections that are counted together are equivalent", "statement": "All reflections that are counted as equivalent have the same momentum transfer and the same size of the structure factor.", "quantifier": "every crystal with its symmetry group, every reflection", "why_tests_cant": "The difference between applying a matrix and its transpose shows only for hexagonal and trigonal axes.", "anchors": ["packages/mccomponents/python/mccomponents/sample/diffraction/calcpeaks.py: equivalent_hkls, F, F_i, q"]}
{"id": "C151", "title": "The smallest spacing leaves out exactly the reflections with a smaller spacing", "statement": "The list with a smallest spacing has exactly those reflections of the list without it whose spacing is at least that large.", "quantifier": "every crystal, smallest spacing and kind of list", "why_tests_cant": "The loops are cut short at reflections (h 0 0) and (0 k 0), which is right only for some lattices.", "anchors": ["packages/mccomponents/python/mccomponents/sample/diffraction/calcpeaks.py: iter_peaks"]}
{"id": "C152", "title": "Neutrons survive the way through an MCPL file", "statement": "Neutrons written to an MCPL file and imported again without scaling have the same position, velocity, time, weight and spin direction, in the same order.", "quantifier": "every list of neutrons, every division of the file in blocks", "why_tests_cant": "A test tries some random neutrons that move; units, angles and empty files are not tried together.", "anchors": ["packages/mcni/lib/neutron/to_mcpl.cc: write_mcpl", "packages/mcni/python/mcni/neutron_storage/mcpl.py: mcpl2mcv, mcv2mcpl", "packages/mcvine/python/mcvine/cli/neutronstorage.py: from_mcpl, to_mcpl"]}
{"id": "C153", "title": "Import from and export to MCPL keep the intensity", "statement": "The mean weight of the mcvine neutrons equals the total weight of the MCPL particles, for the import with its default option and for the export.", "quantifier": "every MCPL file, every list of neutrons", "why_tests_cant": "Whether a factor of the number of neutrons is right cannot be seen from a single conversion.", "anchors": ["packages/mcni/python/mcni/neutron_storage/mcpl.py: mcpl2mcv", "packages/mcvine/python/mcvine/cli/neutronstorage.py: from_mcpl, to_mcpl"]}
{"id": "C154", "title": "Import from MCPL keeps the polarisation", "statement": "An imported particle that is exported again has the same polarisation vector; an unpolarised particle remains unpolarised.", "quantifier": "every particle", "why_tests_cant": "The default spin stands for a fully polarised neutron; files without polarisation look fine.", "anchors": ["packages/mcni/python/mcni/neutron_storage/mcpl.py: mcpl2mcv", "packages/mcni/lib/neutron/to_mcpl.cc: write_mcpl"]}
{"id": "C155", "title": "Conversion between Vitess and mcvine describes the same neutron", "statement": "A converted neutron has the same place, time, wavelength and flight direction, in the units and axes of the other program.", "quantifier": "every neutron", "why_tests_cant": "Each converter was tested only against itself.", "anchors": ["packages/legacycomponents/vitess/lib/mcvine2vitess.h: mcvineneutron2vitessneutron", "packages/legacycomponents/vitess/lib/vitess2mcvine.h: vitessneutron2mcvineneutron", "packages/legacycomponents/vitess/vitess/convert_neutrons.py: vitess2mcvine_npyarr"]}
{"id": "C156", "title": "Commands that take a range of neutrons from a file", "statement": "neutronstorage extract writes exactly the neutrons of the range given by start and end, up to the end of the file by default; print shows those.", "quantifier": "every file, every range including the default one", "why_tests_cant": "The default of an optional argument is compared with a number, which fails only when the option is left out.", "anchors": ["packages/mcvine/python/mcvine/cli/neutronstorage.py: extract, _print"]}
{"id": "C157", "title": "The radial collimator stops exactly the neutrons that hit a blade", "statement": "A neutron from inside passes if and only if its straight path goes through both windows, within the angular range, and does not hit a blade, with the blades turned by the oscillation.", "quantifier": "every geometry, every neutron starting within the inner cylinder, every position of the oscillation", "why_tests_cant": "The code compares only two end points; that nothing lies in between is a geometric argument, and angles jump behind the collimator.", "anchors": ["packages/mcni/python/mcni/components/RadialCollimator.py: RadialCollimator.process, intersectCylinder"]}
{"id": "C158", "title": "The cone source has the energy and momentum transfer asked for", "statement": "Each neutron of NeutronsOnCone_FixedQE has exactly the given energy and momentum transfer from the beam and the arrival time of the beam; the source exists for all values the kinematics allows.", "quantifier": "every Q, E, Ei, L1 and random number", "why_tests_cant": "Random directions; a test checks some neutrons within a tolerance.", "anchors": ["packages/mcni/python/mcni/components/NeutronsOnCone_FixedQE.py: NeutronsOnCone_FixedQE"]}
{"id": "C159", "title": "The monochromatic source emits what was asked for", "statement": "Neutrons come from the rectangle, keep direction, time and weight, and their energy is the one drawn from the distribution.", "quantifier": "every neutron, size, energy spread and all random numbers", "why_tests_cant": "Negative samples of the normal distribution are rare.", "anchors": ["packages/mcni/python/mcni/components/MonochromaticSource.py: MonochromaticSource"]}
{"id": "C160", "title": "Propagation of McStas components brings the neutron forward to the plane", "statement": "PROP_DT moves the neutron along its trajectory, with or without gravity; PROP_Z0 and PROP_X0 bring it to the plane at the first later time it is there, and absorb it if there is none.", "quantifier": "every neutron, gravity vector and time", "why_tests_cant": "Depends on real positions and velocities; the wrong root of the quadratic equation shows only for rare neutrons.", "anchors": ["packages/legacycomponents/mcstas2/lib/propagators.h: prop_dt, prop_z0, prop_x0", "packages/legacycomponents/mcstas2/lib/geometry.cc: plane_intersect_Gfast", "packages/legacycomponents/mcstas2/lib/tracing_macros.h: ABSORB"]}
{"id": "C161", "title": "Rotations of the McStas library are rotations", "statement": "rotate keeps lengths, angles and the component along the axis, and rotations around one axis add up; the matrix of three angles is a rotation whose transpose is its inverse; a change of coordinates keeps distances, speeds, time and weight.", "quantifier": "every axis, angle and vector", "why_tests_cant": "Quantifies over all angles and axes, including an axis of length zero.", "anchors": ["packages/legacycomponents/mcstas2/lib/geometry.cc: rotate, rot_set_rotation, rot_mul, rot_transpose, rot_apply, mccoordschange"]}
{"id": "C162", "title": "Directions towards a disk are uniform in the cone of the disk", "statement": "randvec_target_circle gives directions of the length of the target vector, uniformly distributed in the cone of the disk, and the solid angle of that cone; with radius zero the full sphere.", "quantifier": "every target vector, radius and all random numbers", "why_tests_cant": "Statement about a distribution, for every observable.", "anchors": ["packages/legacycomponents/mcstas2/lib/geometry.cc: randvec_target_circle"]}
{"id": "C163", "title": "Directions towards an angular window are uniform in the window", "statement": "randvec_target_rect_angular gives directions in the window, with the solid angle that belongs to their distribution; without window size the full sphere.", "quantifier": "every target vector, window and all random numbers", "why_tests_cant": "Uniform in angle and uniform in solid angle differ only for large windows.", "anchors": ["packages/legacycomponents/mcstas2/lib/geometry.cc: randvec_target_rect_angular"]}
{"id": "C164", "title": "Directions towards a rectangle have the right weight", "statement": "randvec_target_rect gives a point of the rectangle, and the mean of any observable with the solid angle it returns is the integral over the solid angle of the rectangle.", "quantifier": "every target vector, size of the rectangle, orientation and observable", "why_tests_cant": "Statement about integrals; the weight has to cancel the distance and inclination at each point.", "anchors": ["packages/legacycomponents/mcstas2/lib/geometry.cc: randvec_target_rect"]}
{"id": "C165", "title": "Intersections with sphere, cylinder and box are the ends of the flight through the body", "statement": "The two times returned are exactly the ends of the interval of times for which the neutron is in the body, and no intersection is returned only if it never is inside.", "quantifier": "every position, velocity and size", "why_tests_cant": "Infinitely many flights; flights along axes and through edges are rare.", "anchors": ["packages/legacycomponents/mcstas2/lib/geometry.cc: box_intersect, cylinder_intersect, sphere_intersect"]}
{"id": "C166", "title": "normal_vec is a unit vector perpendicular to its argument", "statement": "For every vector that is not zero the result has length one and is perpendicular to it.", "quantifier": "every vector", "why_tests_cant": "Branches by the size of the components.", "anchors": ["packages/legacycomponents/mcstas2/lib/geometry.cc: normal_vec"]}
{"id": "C167", "title": "randnorm gives independent normally distributed numbers", "statement": "Two calls give independent numbers of the normal distribution, for every observable of the pair; the numbers depend only on the seed.", "quantifier": "every number of rounds of the rejection loop, every bounded observable", "why_tests_cant": "Statement about a distribution; static variables survive from earlier calls.", "anchors": ["packages/legacycomponents/mcstas2/lib/geometry.cc: randnorm"]}
{"id": "C168", "title": "McStas monitors with one axis count the neutrons through their area in the right channel", "statement": "After a run, the number, the sum of weights and the sum of squared weights in a channel are those of the neutrons that come through the area of the monitor with a value in the channel (wavelength, energy, time, position, divergence); every neutron continues from the monitor with its weight; the energy monitor reports the weighted mean and spread.", "quantifier": "every list of neutrons, every area, range and number of channels, with and without gravity", "why_tests_cant": "Needs all sequences of neutrons and all values at and between channel edges.", "anchors": ["packages/legacycomponents/mcstas2/share/McStas-Components/monitors/Monitor.comp", "packages/legacycomponents/mcstas2/share/McStas-Components/monitors/L_monitor.comp", "packages/legacycomponents/mcstas2/share/McStas-Components/monitors/E_monitor.comp", "packages/legacycomponents/mcstas2/share/McStas-Components/monitors/TOF2E_monitor.comp", "packages/legacycomponents/mcstas2/share/McStas-Components/monitors/PSDlin_monitor.comp", "packages/legacycomponents/mcstas2/share/McStas-Components/monitors/Hdiv_monitor.comp", "packages/legacycomponents/mcstas2/share/McStas-Components/monitors/Monitor_4PI.comp"]}
{"id": "C169", "title": "McStas monitors with two axes count the neutrons through their area in the right pixel", "statement": "After a run, number, weights and squared weights of pixel (i, j) are those of the neutrons through the area with the first value in channel i and the second in channel j.", "quantifier": "every list of neutrons, every area, ranges and numbers of channels", "why_tests_cant": "Flat index arithmetic for all sizes; all values at the edges of channels.", "anchors": ["packages/legacycomponents/mcstas2/share/McStas-Components/monitors/PSD_monitor.comp", "packages/legacycomponents/mcstas2/share/McStas-Components/monitors/EPSD_monitor.comp", "packages/legacycomponents/mcstas2/share/McStas-Components/monitors/DivPos_monitor.comp", "packages/legacycomponents/mcstas2/share/McStas-Components/monitors/Divergence_monitor.comp", "packages/legacycomponents/mcstas2/share/McStas-Components/monitors/TOFLambda_monitor.comp", "packages/legacycomponents/mcstas2/share/McStas-Components/monitors/DivLambda_monitor.comp"]}
{"id": "C170", "title": "McStas time of flight monitors count each neutron in the channel of its time", "statement": "Channel i has the neutrons through the area with a time in channel i of the axis that is written to the output, for linear and logarithmic axes.", "quantifier": "every list of neutrons, every axis", "why_tests_cant": "All times at and between channel edges, also far outside of the axis.", "anchors": ["packages/legacycomponents/mcstas2/share/McStas-Components/monitors/TOF_monitor.comp", "packages/legacycomponents/mcstas2/share/McStas-Components/monitors/TOF_monitor2.comp", "packages/legacycomponents/mcstas2/share/McStas-Components/monitors/TOFlog_monitor.comp"]}
{"id": "C171", "title": "McStas cylindrical monitors count neutrons where they leave the cylinder", "statement": "A neutron from inside the cylinder is counted in the pixel of its angle and height, or angle and time, where it goes through the mantle; others are absorbed.", "quantifier": "every list of neutrons, every cylinder, every number of pixels", "why_tests_cant": "Depends on the exit point of every flight and on angles over the full circle.", "anchors": ["packages/legacycomponents/mcstas2/share/McStas-Components/monitors/PSDcyl_monitor.comp", "packages/legacycomponents/mcstas2/share/McStas-Components/monitors/TOF_cylPSD_monitor.comp"]}
{"id": "C172", "title": "The McStas monitor around all directions counts neutrons by longitude and latitude and leaves them unchanged", "statement": "Each neutron that meets the sphere is counted once, in the pixel of longitude and latitude of the first point on the sphere; position, velocity, time and weight of all neutrons stay as they were.", "quantifier": "every list of neutrons, every radius, every number of pixels", "why_tests_cant": "Statement about all flights and all pixel boundaries.", "anchors": ["packages/legacycomponents/mcstas2/share/McStas-Components/monitors/PSD_monitor_4PI.comp"]}
{"id": "C173", "title": "The McStas I(Q,E) monitor counts neutrons by momentum and energy transfer within its angles", "statement": "Pixel (i, j) has the neutrons whose momentum transfer is in channel i and energy transfer in channel j, of those with in-plane and out-of-plane angles in the ranges given.", "quantifier": "every list of neutrons, every range and number of channels", "why_tests_cant": "All directions above and below the plane, all transfers.", "anchors": ["packages/legacycomponents/mcstas2/share/McStas-Components/monitors/IQE_monitor.comp"]}
{"id": "C174", "title": "A McStas slit lets exactly the neutrons through its opening pass", "statement": "A neutron that comes to the slit is moved to its plane and keeps its weight exactly if it is within the rectangle or circle of the opening (and its weight is not below the cut); all others are absorbed.  A slit from width and height is centred.", "quantifier": "every neutron, every slit, with and without gravity", "why_tests_cant": "All lines of flight, also along the edges and away from the slit.", "anchors": ["packages/legacycomponents/mcstas2/share/McStas-Components/optics/Slit.comp"]}
{"id": "C175", "title": "A McStas beam stop absorbs exactly the neutrons that hit it and does not change the others", "statement": "A neutron is absorbed exactly if its flight meets the area of the stop; every other neutron leaves with position, velocity, time and weight unchanged.", "quantifier": "every neutron, every stop, with and without gravity", "why_tests_cant": "All lines of flight, also parallel to the stop and away from it.", "anchors": ["packages/legacycomponents/mcstas2/share/McStas-Components/optics/Beamstop.comp"]}
{"id": "C176", "title": "The McStas linear collimator transmits the part of the neutrons that miss its blades", "statement": "A neutron through entry and exit keeps its weight times the transmission times the part of the parallel paths that go through one channel between blades (for each direction with blades); the others are absorbed.", "quantifier": "every neutron, every collimator, every position of the blades", "why_tests_cant": "The weight is an average over all positions of the blades.", "anchors": ["packages/legacycomponents/mcstas2/share/McStas-Components/optics/Collimator_linear.comp"]}
{"id": "C177", "title": "McStas velocity selectors transmit the part of the rotor phases for which a neutron hits no blade", "statement": "A neutron through both apertures leaves, on average, with its weight times the part of all phases of the rotor for which it enters and leaves between the same two blades.", "quantifier": "every neutron, every rotor", "why_tests_cant": "The weight is an average over all phases of the rotor.", "anchors": ["packages/legacycomponents/mcstas2/share/McStas-Components/optics/V_selector.comp", "packages/legacycomponents/mcstas2/share/McStas-Components/optics/Selector.comp"]}
{"id": "C178", "title": "A McStas disk chopper is open exactly when one of its slits is at the place of the neutron", "statement": "A neutron passes exactly if it comes to the disk between the inner part and the edge while one of the n slits, turning with omega and delayed by t_0 or phi_0, is there and no beam stop in it; the first chopper of an instrument gives each neutron such a time, and the weight of the open part.", "quantifier": "every neutron, every chopper, every time", "why_tests_cant": "All angles and times over all turns of the disk.", "anchors": ["packages/legacycomponents/mcstas2/share/McStas-Components/optics/DiskChopper.comp"]}
{"id": "C179", "title": "The HYSPEC chopper is open exactly when one of its slits is at the place of the neutron", "statement": "A neutron that comes to the chopper passes exactly if one of the n slits is at its angle.", "quantifier": "every neutron, every chopper, every time", "why_tests_cant": "All angles and times over all turns of the disk; undefined behaviour on a set of measure zero.", "anchors": ["packages/legacycomponents/mcstas2/share/McStas-Components/optics/HYSPEC_Chopper_v.comp"]}
{"id": "C180", "title": "A neutron in a McStas guide flies from mirror to mirror and leaves at the end", "statement": "A neutron outside of the opening is absorbed; every other one flies straight between the walls, at each wall its velocity is mirrored and its weight multiplied by the reflectivity for the momentum transfer, and the trace ends when no wall is met before the exit or the coating does not reflect.  The speed does not change.", "quantifier": "every neutron, every guide, every coating", "why_tests_cant": "Paths with any number of reflections; a trace that does not end cannot be seen by a test that ends.", "anchors": ["packages/legacycomponents/mcstas2/share/McStas-Components/optics/Guide.comp"]}
{"id": "C181", "title": "The weight of a neutron in a McStas guide stays positive and does not grow", "statement": "The reflectivity of the coating is between 0 and R0, so the weight of a neutron that was not absorbed is not negative and not larger than before.", "quantifier": "every coating accepted by the component, every neutron", "why_tests_cant": "All momentum transfers and parameters of the coating.", "anchors": ["packages/legacycomponents/mcstas2/share/McStas-Components/optics/Guide.comp"]}
{"id": "C182", "title": "A McStas mirror reflects the neutrons that meet it with its reflectivity", "statement": "A neutron that meets the rectangle of the mirror is mirrored there, with its weight times the reflectivity limited to [0, 1], or with that probability when the mirror transmits; all others are unchanged.", "quantifier": "every neutron, every mirror", "why_tests_cant": "All lines of flight and an average over random numbers.", "anchors": ["packages/legacycomponents/mcstas2/share/McStas-Components/optics/Mirror.comp"]}
{"id": "C183", "title": "The flat McStas monochromator scatters elastically by a multiple of its scattering vector", "statement": "A neutron that meets the crystal is reflected by the order nearest to the condition of Bragg, with the probability of the mosaic crystal, elastically and with a scattering vector of the length of that order; at the exact condition the reflection is specular.  All others are unchanged, and the trace ends.", "quantifier": "every neutron, every crystal, every random number", "why_tests_cant": "All directions and wave lengths; a trace that does not end cannot be seen by a test that ends.", "anchors": ["packages/legacycomponents/mcstas2/share/McStas-Components/optics/Monochromator_flat.comp"]}
{"id": "C184", "title": "Table_Value interpolates linearly between the rows of a table", "statement": "The value of a column at X is the linear interpolation between the neighbouring rows; before the first and after the last row it is the value there.", "quantifier": "every table with an increasing first column, every column, every X", "why_tests_cant": "All tables and places.", "anchors": ["packages/legacycomponents/mcstas2/lib/share/read_table-lib.cc", "packages/legacycomponents/mcstas2/lib/share/read_table-lib.h"]}
{"id": "C185", "title": "Table_Rebin keeps the function of a table and makes its steps equal", "statement": "The result has rows at equal steps, not larger than the smallest step, from the first to the last place in ascending order, and the values are interpolated linearly.", "quantifier": "every table with a monotonic first column", "why_tests_cant": "All tables.", "anchors": ["packages/legacycomponents/mcstas2/lib/share/read_table-lib.cc"]}
{"id": "C186", "title": "The units of McStas components agree with those of the other components", "statement": "Wave vector, velocity and energy are converted by McStas components and by the other components in the same way, and back to the same value.", "quantifier": "every wave vector, velocity and energy", "why_tests_cant": "An equality of real functions; the differences are smaller than the tolerances of tests.", "anchors": ["packages/legacycomponents/mcstas2/lib/phys_constants.h", "packages/mcni/lib/neutron/units_conversion.h", "packages/mcni/lib/neutron/units_conversion.cc"]}
{"id": "C187", "title": "Source_simple emits neutrons from its area through its target with the right spectrum and weight", "statement": "Every neutron starts on the source (uniformly distributed), flies through the target, and has an energy or wave length of the given distribution; its weight is flux * area * solid angle, such that means are integrals over source and target.", "quantifier": "every set of accepted parameters, every random number", "why_tests_cant": "Distributions are integrals over random numbers; all parameters.", "anchors": ["packages/legacycomponents/mcstas2/share/McStas-Components/sources/Source_simple.comp"]}
{"id": "C188", "title": "Source_div emits neutrons with the given divergences and spectrum", "statement": "Every neutron starts in the rectangle of the source with an energy or wave length in the interval and directions with the given divergences (maximum, or full width at half maximum).", "quantifier": "every set of accepted parameters, every random number", "why_tests_cant": "All parameters and random numbers; a property of a distribution.", "anchors": ["packages/legacycomponents/mcstas2/share/McStas-Components/sources/Source_div.comp"]}
{"id": "C189", "title": "Moderator emits neutrons with exponentially distributed times", "statement": "Every neutron starts on the disk, flies through the target, has an energy between E0 and E1; the time of emission is exponentially distributed with the decay time of that energy; the weight is the solid angle / 4 pi.", "quantifier": "every set of accepted parameters, every random number", "why_tests_cant": "A distribution over random numbers.", "anchors": ["packages/legacycomponents/mcstas2/share/McStas-Components/sources/Moderator.comp"]}
{"id": "C190", "title": "Source_Maxwell_3 emits the sum of three Maxwell spectra", "statement": "The mean weight is area * solid angle * the integral of the three Maxwell distributions over the interval of wave lengths, which are normalised to the given fluxes; every neutron starts on the source and flies through the target.", "quantifier": "every set of accepted parameters, every random number", "why_tests_cant": "An integral over random numbers; all parameters.", "anchors": ["packages/legacycomponents/mcstas2/share/McStas-Components/sources/Source_Maxwell_3.comp"]}
{"id": "C191", "title": "Random numbers of the McStas components are those of MT19937", "statement": "After srandom(s), whatever was done before, call number n of mt_random returns the tempered word number 624 + n of the linear recurrence MT19937 seeded with s modulo 2^32, although the code works in place on blocks of 624 words of 64 bits; without a seed it is the stream of the seed 5489.", "quantifier": "every seed of 64 bits, every previous state, every number of calls", "why_tests_cant": "The stream is infinite and there are 2^32 seeds; a test compares the first words of one seed.", "anchors": ["packages/legacycomponents/mcstas2/lib/random_numbers.cc mt_srandom, mt_random"]}
{"id": "C192", "title": "rand01, randpm1 and randminmax stay in their half open ranges", "statement": "Every word has 32 bits, so 0 <= rand01() < 1, -1 <= randpm1() < 1, a <= randminmax(a,b) < b; the tempering is a bijection of the words, so no value is lost or preferred by it.", "quantifier": "every seed, every number of calls, every word", "why_tests_cant": "A value 1 would come once in 2^32 calls.", "anchors": ["packages/legacycomponents/mcstas2/lib/random_numbers.h rand01, randpm1, rand0max, randminmax", "packages/legacycomponents/mcstas2/lib/random_numbers.cc mt_random"]}
{"id": "C193", "title": "The random stream is periodic without transient and never dies", "statement": "For every seed the words repeat from the first call on, never become zero for ever, and 624 words in succession determine all that follow.", "quantifier": "every seed, every position", "why_tests_cant": "The period is far beyond every test.", "anchors": ["packages/legacycomponents/mcstas2/lib/random_numbers.cc mt_random, mt_srandom"]}
{"id": "C194", "title": "Different seeds, nodes and runs have different random numbers", "statement": "Two seeds give the same stream exactly if they agree modulo 2^32; the nodes of a parallel run, and different runs, get different streams from the default seeds.", "quantifier": "every pair of seeds; every rank and time", "why_tests_cant": "Collisions of seeds depend on the microsecond at which each node starts.", "anchors": ["packages/legacycomponents/mcstas2/lib/random_numbers.cc mt_srandom", "packages/mcni/python/mcni/rng_seed.py usetimer_p", "packages/mcni/python/mcni/seeder.py feed", "packages/legacycomponents/mcstas2/mcstas2bpmodule/wrap_random_numbers.cc"]}
{"id": "C195", "title": "The old generator is seeded with the multiplicative congruential sequence", "statement": "The loop of mc_srandom multiplies by 16807 modulo 2^31 - 1 without overflow for every int; no seed gives a state of zeros.", "quantifier": "every seed", "why_tests_cant": "2^32 seeds.", "anchors": ["packages/legacycomponents/mcstas2/lib/random_numbers.cc mc_srandom"]}
{"id": "C196", "title": "V_sample: single scattering with the true way in the material", "statement": "A scattered neutron is scattered at a point taken evenly from its way in the material (not in the hole), keeps its speed unless scattered quasi-elastically, and its weight is the one of single scattering with the lengths of the ways in the material before and after; a transmitted neutron is only attenuated; a neutron that does not meet the sample is left alone.", "quantifier": "every box or hollow cylinder, every flight, all random numbers", "why_tests_cant": "Geometry and weights for all flights; a test compares intensities within statistics.", "anchors": ["packages/legacycomponents/mcstas2/share/McStas-Components/samples/V_sample.comp"]}
{"id": "C197", "title": "V_sample: scattered and transmitted neutrons together carry the weight of the beam", "statement": "Without absorption the mean weight over the place of scattering and over the choice between scattering and transmission is the weight of the neutron, for every probability frac between 0 and 1; the scattered part is 1 - exp(-mu l).", "quantifier": "every sample, flight and direction", "why_tests_cant": "An expectation over random numbers.", "anchors": ["packages/legacycomponents/mcstas2/share/McStas-Components/samples/V_sample.comp"]}
{"id": "C198", "title": "V_sample scatters to the target", "statement": "Every neutron is scattered towards a point of the disk (or the rectangle) at the given target, seen from the point of scattering.", "quantifier": "every target, scattering point and random number", "why_tests_cant": "A quantifier over all random numbers and parameters.", "anchors": ["packages/legacycomponents/mcstas2/share/McStas-Components/samples/V_sample.comp"]}
{"id": "C199", "title": "V_sample: quasi-elastic energy transfers have a Lorentzian distribution", "statement": "The probability for an energy transfer of at most x is 1/2 + arctan(x/gamma)/pi; gamma is the half width at half maximum.", "quantifier": "every gamma > 0 and every x", "why_tests_cant": "A distribution; a histogram shows it within statistics.", "anchors": ["packages/legacycomponents/mcstas2/share/McStas-Components/samples/V_sample.comp"]}
{"id": "C200", "title": "Sans_spheres: the form factor is the Fourier transform of a sphere", "statement": "f(q, R) times the volume is the integral of sin(qr)/(qr) over the sphere.", "quantifier": "every momentum transfer and radius", "why_tests_cant": "An integral identity for all real arguments.", "anchors": ["packages/legacycomponents/mcstas2/share/McStas-Components/samples/Sans_spheres.comp"]}
{"id": "C201", "title": "Sans_spheres: place, direction and weight of scattered neutrons", "statement": "The neutron is scattered at a point taken evenly from its way in the box, keeps its speed, flies within the cone of the detector, and its weight is proportional to way * solid angle * cross section of the spheres * absorption with sigma_a in 1/m at 2200 m/s.", "quantifier": "every box, flight and random number", "why_tests_cant": "All flights and parameters.", "anchors": ["packages/legacycomponents/mcstas2/share/McStas-Components/samples/Sans_spheres.comp"]}
{"id": "C202", "title": "T0 and Fermi choppers: the path in the turning frame is the circle through three places of the flight", "statement": "The computed circle goes through the places of the neutron in the turning frame at the entrance, half way in time and at the exit; there is no circle exactly if these places are on a line.", "quantifier": "every flight, angular velocity and phase", "why_tests_cant": "A geometric identity over all flights.", "anchors": ["packages/legacycomponents/mcstas2/share/McStas-Components/optics/Vertical_T0.comp calccenter, TRACE", "packages/legacycomponents/mcstas2/share/McStas-Components/optics/Fermi_chop2.comp calccenter, TRACE"]}
{"id": "C203", "title": "The angles of a chopper path describe the part of the circle that is flown", "statement": "The computed angle of a point of the circle gives the point back, and the path of the neutron is the arc between the angles of entrance and exit.", "quantifier": "every circle and pair of points on it", "why_tests_cant": "The branch of the inverse cosine matters only for some orientations.", "anchors": ["packages/legacycomponents/mcstas2/share/McStas-Components/optics/Vertical_T0.comp acos0_2pi, neutxypos", "packages/legacycomponents/mcstas2/share/McStas-Components/optics/Fermi_chop2.comp acos0_2pi, neutxypos"]}
{"id": "C204", "title": "The path is tested from the entrance plane to the exit plane of the slot", "statement": "The first tested angle belongs to the entrance plane (or the entrance of the cylinder if that is behind it), the last one to the exit plane (or the exit of the cylinder if that is before it).", "quantifier": "every circle, slot length and place", "why_tests_cant": "All orientations of the chopper and all flights.", "anchors": ["packages/legacycomponents/mcstas2/share/McStas-Components/optics/Vertical_T0.comp TRACE", "packages/legacycomponents/mcstas2/share/McStas-Components/optics/Fermi_chop2.comp TRACE"]}
{"id": "C205", "title": "The path is tested at points of the path", "statement": "The loop tests the points that divide the path into 128 equal parts and no others.", "quantifier": "every path and every test", "why_tests_cant": "The index arithmetic of the nested loops determines which of infinitely many real points are tested.", "anchors": ["packages/legacycomponents/mcstas2/share/McStas-Components/optics/Vertical_T0.comp TRACE"]}
{"id": "C206", "title": "The loop of the T0 chopper ends", "statement": "For every neutron the loop that tests the path ends.", "quantifier": "every chopper and neutron", "why_tests_cant": "Termination.", "anchors": ["packages/legacycomponents/mcstas2/share/McStas-Components/optics/Vertical_T0.comp TRACE"]}
{"id": "C207", "title": "The walls of the T0 slot are planes", "statement": "A point passes the test exactly if its distance from the middle is at most half of the width, which grows linearly from w1 in the centre to w2 at the ends.", "quantifier": "every point and every path through it", "why_tests_cant": "A comparison over all paths through a point.", "anchors": ["packages/legacycomponents/mcstas2/share/McStas-Components/optics/Vertical_T0.comp t0checkabsorb"]}
{"id": "C208", "title": "The blades of the Fermi chopper absorb", "statement": "The test tells the channel in which a point is, and fails for points inside of a blade and for points outside of the package.", "quantifier": "every point, blade thickness and curvature", "why_tests_cant": "All points of the plane.", "anchors": ["packages/legacycomponents/mcstas2/share/McStas-Components/optics/Fermi_chop2.comp checkabsorb, blades"]}
{"id": "C209", "title": "A neutron that passes the Fermi chopper stays in one of its channels", "statement": "If the neutron passes, all tested points are in the same channel and its number is between 1 and the number of channels.", "quantifier": "every chopper and path", "why_tests_cant": "All paths.", "anchors": ["packages/legacycomponents/mcstas2/share/McStas-Components/optics/Fermi_chop2.comp checkabsorb, TRACE"]}
{"id": "C210", "title": "The Fermi chopper works for every radius of its blades", "statement": "The offset of the package is the bend of the blades over the length of the slots; radius 0 means straight blades.", "quantifier": "every length and radius", "why_tests_cant": "The special values have no test.", "anchors": ["packages/legacycomponents/mcstas2/share/McStas-Components/optics/Fermi_chop2.comp INITIALIZE, TRACE"]}
{"id": "C211", "title": "The choppers extend from ymin to ymax", "statement": "A neutron that passes the chopper is between ymin and ymax when it enters; a neutron outside of these limits is absorbed.", "quantifier": "every pair of limits and every neutron", "why_tests_cant": "All limits and flights.", "anchors": ["packages/legacycomponents/mcstas2/share/McStas-Components/optics/Vertical_T0.comp TRACE", "packages/legacycomponents/mcstas2/share/McStas-Components/optics/Fermi_chop2.comp TRACE"]}
{"id": "C212", "title": "The spectrum of the SNS sources is the polygon through the table", "statement": "linfuncint gives the straight line between the neighbouring points of the table, and does not give a number for a place outside of the table.", "quantifier": "every table with increasing places, every place", "why_tests_cant": "All places in the intervals of all tables.", "anchors": ["packages/legacycomponents/mcstas2/lib/share/sns_source-lib.cc linfuncint, linint"]}
{"id": "C213", "title": "The distributions of the SNS sources are interpolated by quadratic functions", "statement": "quadfuncint gives the values of the table at its points, reproduces quadratic functions, and the interpolation of an increasing table is increasing.", "quantifier": "every table with increasing places, every place", "why_tests_cant": "All places in the intervals of all tables.", "anchors": ["packages/legacycomponents/mcstas2/lib/share/sns_source-lib.cc quadfuncint, quadint"]}
{"id": "C214", "title": "The integration of the SNS sources converges to the integral", "statement": "integ1 ends for continuous functions with an integral that is not 0 and its result is the integral up to the accuracy that is asked for.", "quantifier": "every continuous function and interval", "why_tests_cant": "A limit over all halvings of the interval.", "anchors": ["packages/legacycomponents/mcstas2/lib/share/sns_source-lib.cc integ1, integtrap"]}
{"id": "C215", "title": "The distribution of the energies of the SNS sources is that of the spectrum", "statement": "The value of Pvec at each point of the table is the area under the spectrum below this point as a part of the whole area.", "quantifier": "every table with increasing energies and positive area", "why_tests_cant": "Needs the integral under every polygon.", "anchors": ["packages/legacycomponents/mcstas2/lib/share/sns_source-lib.cc Pcalc", "packages/legacycomponents/mcstas2/share/McStas-Components/sources/SNS_source_r1.comp INITIALIZE"]}
{"id": "C216", "title": "The distribution of the emission times of the SNS sources is that of the pulse", "statement": "The value at each point of the table is the area under the pulse between the lower limit and this point as a part of the area between the limits.", "quantifier": "every table with increasing times, every pair of limits inside", "why_tests_cant": "Needs the integral under every polygon.", "anchors": ["packages/legacycomponents/mcstas2/lib/share/sns_source-lib.cc tPcalc", "packages/legacycomponents/mcstas2/share/McStas-Components/sources/SNS_source_r1.comp INITIALIZE"]}
{"id": "C217", "title": "The SNS sources find an energy for every random number", "statement": "zero_find ends and returns a place where the function is 0 up to the tolerance, whenever there is one between the limits.", "quantifier": "every continuous function with a zero, every table and random number", "why_tests_cant": "Termination and all random numbers.", "anchors": ["packages/legacycomponents/mcstas2/lib/share/sns_source-lib.cc zero_find", "packages/legacycomponents/mcstas2/share/McStas-Components/sources/SNS_source_r1.comp TRACE"]}
{"id": "C218", "title": "The file of an SNS moderator is read as it is", "statement": "After the file has been reformatted the energies, times and intensities, and their numbers, are those of the file.", "quantifier": "every number of energies and times and every content of the memory behind the data", "why_tests_cant": "Depends on the content of memory that was never written.", "anchors": ["packages/legacycomponents/mcstas2/lib/share/sns_source-lib.cc sns_source_load", "packages/legacycomponents/mcstas2/share/McStas-Components/sources/SNS_source_r1.comp INITIALIZE"]}
{"id": "C219", "title": "The SNS sources aim at the focusing rectangle", "statement": "Every neutron goes through the rectangle xw x yh at the distance dist.", "quantifier": "every source, place on it and pair of random numbers", "why_tests_cant": "All directions.", "anchors": ["packages/legacycomponents/mcstas2/share/McStas-Components/sources/SNS_source_r1.comp TRACE", "packages/legacycomponents/mcstas2/share/McStas-Components/sources/SNS_source.comp TRACE"]}
{"id": "C220", "title": "The neutrons of the SNS sources", "statement": "Each neutron starts on the surface, its speed is that of its energy, its direction is rotated by angling about the vertical axis, and its weight is the solid angle times the integrated spectrum.", "quantifier": "every source and random numbers", "why_tests_cant": "All random numbers.", "anchors": ["packages/legacycomponents/mcstas2/share/McStas-Components/sources/SNS_source_r1.comp TRACE"]}
{"id": "C221", "title": "The emission time of an SNS source belongs to the energy", "statement": "For an energy within the table the distribution of the times is the mixture of those of the neighbouring energies.", "quantifier": "every table and energy, the first one of the table included", "why_tests_cant": "All energies; at the edge a value before the array is read.", "anchors": ["packages/legacycomponents/mcstas2/share/McStas-Components/sources/SNS_source_r1.comp TRACE"]}
{"id": "C222", "title": "The SNS sources use the whole spectrum of the file", "statement": "The table ends where the intensity becomes 0, or at the last line of the file.", "quantifier": "every file", "why_tests_cant": "All files.", "anchors": ["packages/legacycomponents/mcstas2/lib/share/sns_source-lib.cc sns_source_load", "packages/legacycomponents/mcstas2/share/McStas-Components/sources/SNS_source_r1.comp INITIALIZE"]}
{"id": "C223", "title": "The weights of SNS_source_2020 are proportional to the area of the source", "statement": "The area is that of the rectangle, or of the disk if a radius is given.", "quantifier": "all sizes", "why_tests_cant": "For a degenerate source the variable is not initialised.", "anchors": ["packages/legacycomponents/mcstas2/share/McStas-Components/sources/SNS_source_2020.comp INITIALIZE"]}
{"id": "C224", "title": "Orientations mean the same rotation however they are written", "statement": "The matrix of an axis and an angle is a proper rotation by this angle in degrees about the axis, whatever the length of the axis, and the matrix of three angles is the product of the rotations about x, y' and z''; both turn in the same sense.", "quantifier": "every axis that is not zero, all angles", "why_tests_cant": "All axes and angles.", "anchors": ["packages/mccomposite/python/mccomposite/orientation_conventions/rotations.py matrix_rotationaboutaxis", "packages/mccomposite/python/mccomposite/orientation_conventions/McStasConvention.py", "packages/mccomposite/python/mccomposite/AbstractOrientationConvention.py tomatrix"]}
{"id": "C225", "title": "The C++ shape built from a description is the body described", "statement": "For every tree of shapes and operations that makes sense the renderer succeeds, and the point set of the C++ shape is the one the description means in the McStas frame: width along x, height along y, thickness along z, vertical axes, rotations and translations in the stated frame.", "quantifier": "every description: all nestings of unions, intersections, differences, dilations, rotations and translations of all primitives", "why_tests_cant": "Infinitely many trees and points.", "anchors": ["packages/mccomposite/python/mccomposite/geometry/ShapeComputationEngineRenderer.py", "packages/mccomposite/python/mccomposite/coordinate_systems/McStasCSAdaptor_for_ShapeComputationEngineRenderer.py", "packages/mccomposite/python/mccomposite/extensions/HollowCylinder.py", "packages/mccomposite/python/mccomposite/extensions/SphereShell.py"]}
{"id": "C226", "title": "A shape is the same body in both coordinate systems", "statement": "A description rendered in the coordinate system of the instrument scientist is the same body as in that of McStas, with the axes renamed.", "quantifier": "every description", "why_tests_cant": "Infinitely many descriptions.", "anchors": ["packages/mccomposite/python/mccomposite/coordinate_systems/InstrumentScientistCSAdaptor_for_ShapeComputationEngineRenderer.py", "packages/mccomposite/python/mccomposite/coordinate_systems/McStasCSAdaptor_for_ShapeComputationEngineRenderer.py"]}
{"id": "C227", "title": "Hollow shapes are their walls", "statement": "A hollow cylinder or a sphere shell consists of the points between the two radii, the hole of the cylinder is open at both ends, and radii that leave no wall are refused.", "quantifier": "all radii and heights", "why_tests_cant": "All real radii.", "anchors": ["packages/mccomposite/python/mccomposite/extensions/HollowCylinder.py onHollowCylinder", "packages/mccomposite/python/mccomposite/extensions/SphereShell.py onSphereShell"]}
{"id": "C228", "title": "A composite is the union of its parts where the user put them", "statement": "The shape of a composite is the union of the bodies of its elements, each turned and moved as said when it was added, and this agrees with the places of the constituents in the C++ composite.", "quantifier": "every number of elements, positions and orientations", "why_tests_cant": "Infinitely many assemblies.", "anchors": ["packages/mccomposite/python/mccomposite/CompositeScatterer.py shape, addElement", "packages/mccomposite/python/mccomposite/ScattererComputationEngineRenderer.py onCompositeScatterer", "packages/mcni/python/mcni/Geometer.py"]}
{"id": "C229", "title": "Composites can be changed and can contain an element more than once", "statement": "After every sequence of additions and queries the shape of the composite contains all its elements at all their places; copies can be elements.", "quantifier": "every sequence of additions and queries", "why_tests_cant": "Depends on the order of calls.", "anchors": ["packages/mccomposite/python/mccomposite/CompositeScatterer.py shape", "packages/mccomposite/python/mccomposite/ScattererCopy.py", "packages/mcni/python/mcni/Geometer.py register"]}
{"id": "C230", "title": "Zero is a value like others for limits and weights", "statement": "The limits of multiple scattering and the weights of kernels are used as given.", "quantifier": "all numbers, zero included", "why_tests_cant": "A single special value in each of several options.", "anchors": ["packages/mccomposite/python/mccomposite/CompositeScatterer.py setMultipleScatteringParams", "packages/mccomponents/python/mccomponents/homogeneous_scatterer/KernelComputationEngineRenderer.py onCompositeKernel", "packages/mccomponents/python/mccomponents/homogeneous_scatterer/HomogeneousScatterer.py"]}
{"id": "C231", "title": "Detector tubes with pixels can be built in every direction", "statement": "he3tube_withpixels gives a tube along the direction asked for, with pixels at the centres of equal parts of its axis, all inside of the tube.", "quantifier": "all radii, lengths, numbers of pixels, directions and both coordinate systems", "why_tests_cant": "All dimensions and numbers of pixels.", "anchors": ["packages/mccomponents/python/mccomponents/detector/__init__.py he3tube_withpixels", "packages/mccomponents/python/mccomponents/detector/ComputationEngineRendererExtension.py onHe3Tube"]}
{"id": "C232", "title": "Copies of scatterers stand for what they copy", "statement": "A scatterer tree with copies is rendered to as many pieces as the tree with the copies replaced by their references.", "quantifier": "every tree of composites, tubes, homogeneous scatterers and copies", "why_tests_cant": "Infinitely many trees.", "anchors": ["packages/mccomposite/python/mccomposite/ScattererComputationEngineRenderer.py onScattererCopy", "packages/mccomposite/python/mccomposite/ScattererCopy.py", "packages/mccomponents/python/mccomponents/detector/ComputationEngineRendererExtension.py onHe3TubeCopy"]}
{"id": "C233", "title": "Units are removed correctly or the value is refused", "statement": "A value becomes the number y exactly if it is the bare number y or a quantity of y times the unit asked for; a vector of numbers exactly if all elements are bare or all are quantities of the dimension. Everything else is refused.", "quantifier": "all scalars and vectors of any length, all units", "why_tests_cant": "All values, units and lengths.", "anchors": ["packages/mccomposite/python/mccomposite/units_utils.py remove_unit"]}
{"id": "C234", "title": "The parameters in a kernel file reach the C++ kernel", "statement": "For a file with one kernel, the C++ constructor is called with the numbers written in the file, in the units and in the order it expects, whatever units the file uses.", "quantifier": "eight classes of kernels, all texts the parser for values understands, all samples", "why_tests_cant": "The product of classes, attributes and units.", "anchors": ["packages/mccomponents/python/mccomponents/sample/kernelxml/parser/", "packages/mccomponents/python/mccomponents/sample/ComputationEngineRendererExtension.py", "packages/mccomponents/python/mccomponents/sample/bindings/BoostPythonBinding.py"]}
{"id": "C235", "title": "Given coefficients are used, otherwise those of the sample", "statement": "An absorption or scattering coefficient in the file is used; one left out is taken from the sample.", "quantifier": "every kernel, every combination of given and missing coefficients", "why_tests_cant": "Combinations of optional attributes for each class.", "anchors": ["packages/mccomponents/python/mccomponents/sample/ComputationEngineRendererExtension.py onIsotropicKernel, onSQkernel, onSQE_EnergyFocusing_Kernel", "packages/mccomponents/python/mccomponents/sample/kernelxml/parser/SQkernel.py"]}
{"id": "C236", "title": "Containers of kernels keep kernels, weights and orientations", "statement": "Every tree of containers becomes the same tree of composite kernels in C++, each kernel with the weight and the orientation in the file and in the order of the file; weights that are not positive are refused.", "quantifier": "every tree, every depth", "why_tests_cant": "Infinitely many trees.", "anchors": ["packages/mccomponents/python/mccomponents/sample/kernelxml/parser/KernelContainer.py", "packages/mccomponents/python/mccomponents/sample/kernelxml/parser/KernelNode.py", "packages/mccomponents/python/mccomponents/homogeneous_scatterer/KernelComputationEngineRenderer.py onCompositeKernel"]}
{"id": "C237", "title": "The attribute average is understood or refused", "statement": "Averaging is on for the ways to say yes, off for the ways to say no, and other texts are refused.", "quantifier": "every text", "why_tests_cant": "All texts.", "anchors": ["packages/mccomponents/python/mccomponents/sample/kernelxml/parser/KernelContainer.py createKernel"]}
{"id": "C238", "title": "A kernel written to a file can be read back", "statement": "Writing a kernel and reading the file gives the same kernel.", "quantifier": "every kernel and container", "why_tests_cant": "Infinitely many kernels; the writer and the reader were written separately.", "anchors": ["packages/mccomponents/python/mccomponents/sample/kernelxml/Renderer.py", "packages/mccomponents/python/mccomponents/homogeneous_scatterer/hsxml/Renderer.py", "packages/mccomponents/python/mccomponents/sample/kernelxml/parser/"]}
{"id": "C239", "title": "Auto-normalization makes the mean of I*Q equal to 1", "statement": "After auto-normalization the mean over all cells of the table of S(Q,E), times Q, is 1; the request is understood or refused.", "quantifier": "all tables, all texts of the request", "why_tests_cant": "All tables.", "anchors": ["packages/mccomponents/python/mccomponents/sample/kernelxml/parser/GridSQE.py"]}
{"id": "C240", "title": "A table becomes the C++ grid with the same bins", "statement": "A histogram with bins of equal width becomes the C++ grid with the same origin, the same width and the same values; histograms with other bins are refused.", "quantifier": "all tables S(Q,E), S(Q) and S(Q vector), any number of bins", "why_tests_cant": "All axes and sizes.", "anchors": ["packages/mccomponents/python/mccomponents/sample/ComputationEngineRendererExtension.py onGridSQE, onGridSQ, onGridSvQ", "packages/mccomponents/python/mccomponents/sample/bindings/BoostPythonBinding.py gridsqe, gridsq, gridsvq"]}
{"id": "C241", "title": "Every kernel in a container knows the sample it belongs to", "statement": "After the kernel of a scatterer was attached to its sample, every kernel at any depth refers to this sample.", "quantifier": "every tree of kernels", "why_tests_cant": "Infinitely many trees.", "anchors": ["packages/mccomponents/python/mccomponents/homogeneous_scatterer/Kernel.py setScattererOrigin", "packages/mccomponents/python/mccomponents/homogeneous_scatterer/CompositeKernel.py setScattererOrigin"]}
{"id": "C242", "title": "The options of a scatterer file reach C++ and survive writing", "statement": "Monte Carlo weights, number of loops, minimal probability and packing factor are used as written, also when they are 0, with the documented defaults; writing the scatterer keeps them.", "quantifier": "all values and all subsets of options", "why_tests_cant": "All values, with zero as a special case.", "anchors": ["packages/mccomponents/python/mccomponents/homogeneous_scatterer/hsxml/parser/HomogeneousScatterer.py", "packages/mccomponents/python/mccomponents/homogeneous_scatterer/hsxml/Renderer.py onHomogeneousScatterer"]}
{"id": "C243", "title": "Reflections of a laz file are found in whatever columns the comments declare", "statement": "A laz file is read into one peak per row, with the indexes, the (squared) structure factor and the multiplicity from the columns that the comments declare, the momentum transfer of the lattice of the file, sorted by momentum transfer.", "quantifier": "every number and order of comments, columns and rows, every spacing, every lattice", "why_tests_cant": "Infinitely many files.", "anchors": ["packages/mccomponents/python/mccomponents/sample/diffraction/parsers/laz.py parse, getPeaks, getLattice, _q"]}
{"id": "C244", "title": "Comments of a laz or lau file can be added freely", "statement": "A comment that declares nothing, as a line of its own or after the numbers of a row, with or without a newline at the end of the file, does not change what is read.", "quantifier": "all files and comments", "why_tests_cant": "All places and texts of comments.", "anchors": ["packages/mccomponents/python/mccomponents/sample/diffraction/parsers/laz.py parse, getPeaks, COMMENT", "packages/mccomponents/python/mccomponents/sample/diffraction/parsers/lau.py parse"]}
{"id": "C245", "title": "Cross sections of a laz file are those of the unit cell", "statement": "The coherent, incoherent and absorption cross sections are the values of the file times the number of atoms.", "quantifier": "every order of the comments, all values", "why_tests_cant": "Infinitely many files.", "anchors": ["packages/mccomponents/python/mccomponents/sample/diffraction/parsers/laz.py getCrossSections"]}
{"id": "C246", "title": "Reflections of a lau file are read in the order of the rows", "statement": "A lau file is read into one reflection per row, with the numbers from the columns that the comments declare, in the order of the file.", "quantifier": "every number and order of comments, columns and rows", "why_tests_cant": "Infinitely many files.", "anchors": ["packages/mccomponents/python/mccomponents/sample/diffraction/parsers/lau.py parse, getHKLs, getLattice"]}
{"id": "C247", "title": "The total cross section of a powder in Python agrees with the C++ kernel", "statement": "The cross section per unit cell that total_scattering_cross_section computes for the energy of a neutron, divided by the volume, is the scattering coefficient of SimplePowderDiffractionKernel for this neutron; each Debye-Scherrer cone has the value of Squires.", "quantifier": "every list of peaks without Debye-Waller factor, every volume, every velocity except 0", "why_tests_cant": "Two implementations in two languages for all velocities, thresholds included.", "anchors": ["packages/mccomponents/python/mccomponents/sample/diffraction/powder.py total_scattering_cross_section", "packages/mccomponents/lib/kernels/sample/diffraction/SimplePowderDiffractionKernel.cc scattering_coefficient"]}
{"id": "C248", "title": "A density of states file is read with its unit, whatever comments it has", "statement": "The numbers are kept in the order of the lines, energies are converted to meV with the unit that a comment names, and comments without meaning do not matter.", "quantifier": "every number and order of lines, all texts of comments", "why_tests_cant": "Infinitely many files.", "anchors": ["packages/mccomponents/python/mccomponents/sample/phonon/read_dos.py doshist_fromascii", "packages/mccomponents/python/mccomponents/sample/idf/units.py hertz2mev"]}
{"id": "C249", "title": "MPI.barrier is a barrier", "statement": "No node leaves the k-th call of barrier before all nodes have entered their k-th call.", "quantifier": "every number of nodes, every number of calls, every interleaving of the nodes, messages buffered or handed over directly", "why_tests_cant": "The number of interleavings grows exponentially and a test sees one of them, usually a harmless one.", "anchors": ["packages/mcni/python/mcni/components/ParallelComponent.py MPI.barrier, UniqueChannelGenerator, MPI.getUniqueChannel", "packages/mcni/python/mcni/utils/mpi/use_mpi4py.py send, receive"]}
{"id": "C250", "title": "Barriers end", "statement": "If all nodes call barrier equally often no interleaving gets stuck: while a node has not finished some node can go on, no run is longer than the number of operations, and every run can be completed.", "quantifier": "every number of nodes, every number of calls, every interleaving", "why_tests_cant": "Absence of deadlock is a statement on all interleavings.", "anchors": ["packages/mcni/python/mcni/components/ParallelComponent.py MPI.barrier", "packages/mcni/python/mcni/utils/mpi/use_mpi4py.py send, receive"]}
{"id": "C251", "title": "Calls of barrier are matched", "statement": "A node that has left a barrier was released by the call of node 0 for the same barrier, also when a node has skipped an earlier one; a call that node 0 does not make is never left.", "quantifier": "every number of nodes and calls, every interleaving", "why_tests_cant": "A mismatch shows only in some interleavings.", "anchors": ["packages/mcni/python/mcni/components/ParallelComponent.py MPI.barrier, MPI.getUniqueChannel", "packages/mcni/python/mcni/pyre_components/EventAreaMonitor.py EventAreaMonitor._fini"]}
{"id": "C252", "title": "The events of all nodes are there when they are merged", "statement": "When node 0 merges the event files of an area monitor every node has written its file.", "quantifier": "every number of nodes, every interleaving", "why_tests_cant": "The result depends on the timing of the nodes; a test with fast nodes passes (the code waits five seconds).", "anchors": ["packages/mcni/python/mcni/pyre_components/EventAreaMonitor.py EventAreaMonitor._saveFinalResult, EventAreaMonitor._saveResult", "packages/mcni/python/mcni/components/ParallelComponent.py MPI.barrier"]}
{"id": "C253", "title": "The check of the output directory looks at an earlier run", "statement": "Node 0 checks that the output directory does not exist before any node of this run makes it.", "quantifier": "every number of nodes, every interleaving, messages buffered or not", "why_tests_cant": "The failure needs a node that is faster than node 0.", "anchors": ["packages/mcni/python/mcni/pyre_support/Instrument.py Instrument._setup_outputdir", "packages/mcni/python/mcni/SimulationContext.py SimulationContext.getOutputDirInProgress", "packages/mcni/python/mcni/components/ParallelComponent.py MPI.barrier"]}
{"id": "C254", "title": "The axes of NDMonitor are the documented quantities in the documented units", "statement": "energy in meV is mv\u00b2/2, w in angstrom is the de Broglie wavelength, q in 1/angstrom is mv/hbar, divx and divy are tangents of angles, the others are the coordinates; the axes come in the order of the arguments, each with its own bins and range.", "quantifier": "every moving neutron, all values of the constants, all lists of quantities and settings", "why_tests_cant": "All velocities; the factors are checked against the definition in SI units instead of against numbers that were computed with the same factors.", "anchors": ["packages/mcni/python/mcni/pyre_components/_ndmonitor.py quantities, ndmonitor", "packages/mcni/python/mcni/utils/conversion.py K2V, V2K, VS2E, RV2W"]}
{"id": "C255", "title": "NDMonitor measures the expressions of the user", "statement": "A quantity given as keyword with an expression, with or without unit, gets an axis with this expression.", "quantifier": "all names, all expressions, all other keywords", "why_tests_cant": "Infinitely many combinations of keywords.", "anchors": ["packages/mcni/python/mcni/pyre_components/_ndmonitor.py ndmonitor"]}
{"id": "C256", "title": "A packet size is written once and read back", "statement": "The size set in a packet size file is the size that any store gets later, and it cannot be changed.", "quantifier": "every positive size, every sequence of setting and opening considered", "why_tests_cant": "All sizes, and states of the file left by other sessions.", "anchors": ["packages/mcni/python/mcni/neutron_storage/_neutron_storage_impl/PacketSizeStore.py PacketSizeStore"]}
{"id": "C257", "title": "The analytic reflectivity is that of a supermirror", "statement": "StdReflecFunc is R0 up to the end of the total reflection, then falls to the edge at m Qc, is 0 behind it and for m = 0, and is never negative.", "quantifier": "every momentum transfer and all parameters", "why_tests_cant": "A continuum of parameters; the wrong values appear for large m, or for a sharp edge.", "anchors": ["packages/legacycomponents/mcstas2/lib/share/ref-lib.cc StdReflecFunc, TableReflecFunc"]}
{"id": "C258", "title": "DiskChopper_v2 passes neutrons that meet a slit", "statement": "A neutron in the ring of the slits passes unchanged exactly if one of the slits is there at its time; the first chopper gives such a time and the weight of the open fraction; a slit given by its width has this width at the middle of the beam.", "quantifier": "every neutron, all frequencies, numbers of slits, delays or phases, jitter", "why_tests_cant": "All times over unboundedly many turns, all positions on the disk.", "anchors": ["packages/legacycomponents/mcstas2/share/McStas-Components/optics/DiskChopper_v2.comp INITIALIZE, TRACE"]}
{"id": "C259", "title": "Filter_gen applies the table to the quantity that the options name", "statement": "Inside the window the weight is multiplied by, set to, or increased by the linear interpolation of the table at the energy, wave vector or wavelength (scaled, to the power of the thickness); outside the neutron is absorbed.", "quantifier": "every table on an even grid, every neutron, all texts of options considered", "why_tests_cant": "All tables and velocities; the mode for adding is never used in examples.", "anchors": ["packages/legacycomponents/mcstas2/share/McStas-Components/optics/Filter_gen.comp FilterGen_Mode, INITIALIZE, TRACE"]}
{"id": "C260", "title": "Collimator_radial weights neutrons by the channel they fly to", "statement": "A neutron from the axis to a channel comes out with the triangular (or bladed) transmission around the middle of the channel; other neutrons are not changed.", "quantifier": "every direction and height, all radii, numbers of channels and divergences", "why_tests_cant": "A continuum of directions; the errors are for neutrons outside of the collimator and for derived numbers of channels.", "anchors": ["packages/legacycomponents/mcstas2/share/McStas-Components/optics/Collimator_radial.comp INITIALIZE, TRACE"]}
{"id": "C261", "title": "A neutron stays in its channel of Guide_channeled", "statement": "A neutron in the opening of a channel is reflected only at the walls of this channel, each time with the reflectivity of the wall, until it leaves the channel or is absorbed; on the front of a wall it is absorbed.", "quantifier": "every neutron, every number of channels and reflections", "why_tests_cant": "Unboundedly many reflections; all channels.", "anchors": ["packages/legacycomponents/mcstas2/share/McStas-Components/optics/Guide_channeled.comp INITIALIZE, TRACE"]}
{"id": "C262", "title": "The closed form of Bender is the trace of all reflections", "statement": "A neutron in a channel of the curved guide leaves it as if every straight flight and every mirror reflection, at the two circles of the channel and at floor and ceiling, were followed one by one; position, velocity, time and weight are those at the end of this path. Neutrons outside of the openings are stopped.", "quantifier": "every neutron, every radius, number of channels and length, so every number of reflections", "why_tests_cant": "Infinitely many paths with unboundedly many reflections; the component computes the end with a modulus, so no test sees the path.", "anchors": ["packages/legacycomponents/mcstas2/share/McStas-Components/optics/Bender.comp INITIALIZE, TRACE, bd_sgn"]}
{"id": "C263", "title": "Bender transports forward flying neutrons only", "statement": "Neutrons fly forward along the whole bend; a neutron that flies out of the entrance is not transported to the exit.", "quantifier": "every neutron", "why_tests_cant": "Backward neutrons are rare in tests.", "anchors": ["packages/legacycomponents/mcstas2/share/McStas-Components/optics/Bender.comp TRACE"]}
{"id": "C264", "title": "Guide_gravity follows every reflection in the channel of the neutron", "statement": "A neutron that comes into a channel falls freely between the walls of this channel from reflection to reflection; each one mirrors the velocity and multiplies the weight by the reflectivity for its momentum transfer; it ends at the exit, at a chamfer or at a wall that does not reflect. A neutron that comes to a wall between channels or beside the opening is absorbed.", "quantifier": "every neutron, every gravity along y, all channels, tapers, chamfers and coatings, up to 1000 reflections", "why_tests_cant": "A continuum of parabolas and unboundedly many reflections; the errors happen within 1e-10 seconds.", "anchors": ["packages/legacycomponents/mcstas2/share/McStas-Components/optics/Guide_gravity.comp Gravity_guide_Init, Gravity_guide_Trace, INITIALIZE, TRACE", "packages/legacycomponents/mcstas2/lib/misc.cc solve_2nd_order"]}
{"id": "C265", "title": "Guide_gravity conserves the energy", "statement": "The sum of kinetic and potential energy of a neutron that passes the guide is the same before and after it, with waviness, chamfers, channels and in the mode of a chopper.", "quantifier": "every neutron, all options, all random numbers", "why_tests_cant": "All normals of wavy walls and all reflections.", "anchors": ["packages/legacycomponents/mcstas2/share/McStas-Components/optics/Guide_gravity.comp TRACE"]}
{"id": "C266", "title": "Guide_gravity does not increase the weight", "statement": "A neutron is absorbed and marked, or it is at the exit with a weight between 0 and its old weight, also with a table of reflectivities outside of [0, 1].", "quantifier": "every neutron, table and number of reflections", "why_tests_cant": "All tables and all paths.", "anchors": ["packages/legacycomponents/mcstas2/share/McStas-Components/optics/Guide_gravity.comp TRACE"]}
{"id": "C267", "title": "The phase of Guide_gravity as a chopper matters only modulo a turn", "statement": "With a phase that differs by a full turn, or by half a turn, neutrons are treated in the same way.", "quantifier": "every phase, frequency and neutron", "why_tests_cant": "All angles; negative ones come from negative frequencies, times or phases.", "anchors": ["packages/legacycomponents/mcstas2/share/McStas-Components/optics/Guide_gravity.comp TRACE"]}
{"id": "C268", "title": "Guide_gravity makes neutrons fall", "statement": "A neutron that meets no wall falls freely to the exit with the acceleration of the norm G, downwards.", "quantifier": "every neutron and G", "why_tests_cant": "The sign is hidden by the default value.", "anchors": ["packages/legacycomponents/mcstas2/share/McStas-Components/optics/Guide_gravity.comp INITIALIZE, TRACE", "packages/legacycomponents/mcstas2/share/McStas-Components/optics/Guide_gravity.comp parameter G"]}
{"id": "C269", "title": "Instruments of McStas are read as they are written", "statement": "The parser finds the components of an instrument file in order, each with its name, its type, its parameters, its position and its orientation; without ROTATED the orientation is that of the reference of the position.", "quantifier": "every file with any number of components, parameters and other lines, any white space and case of the key words", "why_tests_cant": "An infinite language; the regular expressions backtrack, so tests with a few files do not show which text is captured.", "anchors": ["packages/legacycomponents/mcstas2/python/mcstas2/utils/parsers/McStasInstrumentParser.py parse, _params, _properties, _propKeyValue, _vectorRelation, _rotation"]}
{"id": "C270", "title": "Comments in instruments of McStas do not matter", "statement": "Comments are removed before components are read, each up to its end, and nothing else is removed.", "quantifier": "every text", "why_tests_cant": "An infinite language.", "anchors": ["packages/legacycomponents/mcstas2/python/mcstas2/utils/parsers/McStasInstrumentParser.py _removeComments"]}
{"id": "C271", "title": "The converted script places components as the instrument file says", "statement": "The python script that is generated from an instrument file runs and places every component at the position and in the orientation that AT and ROTATED describe along the chain of references.", "quantifier": "every list of components, all positions, rotations and chains of references", "why_tests_cant": "Chains of any length; the error in the reference of the orientation has no effect if references are not rotated.", "anchors": ["packages/legacycomponents/mcstas2/python/mcstas2/cli/convertinstrument.py _render_non_pyre", "packages/mcni/python/mcni/Instrument.py append, _register", "packages/mcni/python/mcni/Geometer2.py"]}
{"id": "C272", "title": "The configuration of a converted instrument keeps what is no expression", "statement": "In the inventory of a converted instrument position and orientation keep their vectors and references; texts that are expressions of the parameters are replaced by their values, names and references are not changed.", "quantifier": "all nested values of components and all environments", "why_tests_cant": "All names and environments.", "anchors": ["packages/mcvine/python/mcvine/pyre_support/pml.py _coord, set_instrument_parameters, propagate_values", "packages/legacycomponents/mcstas2/python/mcstas2/cli/convertinstrument.py onInstrument, onComponent"]}
{"id": "C273", "title": "Parallel processes get the arguments of the user unchanged", "statement": "The command that a launcher hands to the shell starts the wanted number of processes of the same program, and each of them gets the arguments of the user, unchanged and in order, and --mode=worker.", "quantifier": "all programs, numbers of nodes and arguments of the user", "why_tests_cant": "All texts that can be arguments; what the shell does with them is not seen by tests of the list of arguments.", "anchors": ["packages/mcni/python/mcni/pyre_support/MPILauncherBase.py _buildArgumentList, launch", "packages/mcni/python/mcni/pyre_support/LauncherSerial.py _buildArgumentList", "packages/mcni/python/mcni/pyre_support/LauncherSlurm.py", "packages/mcni/python/mcni/_mpi_settings.py build_launch_cmd"]}
{"id": "C274", "title": "A parallel application runs its main function in the workers only", "statement": "A server starts one command and runs nothing itself, and fails if the command fails or is not started; a worker runs the main function once, unless several nodes are asked for without MPI.", "quantifier": "all settings, results of the command and of the main function", "why_tests_cant": "Combinations of modes, launchers and results that need a cluster.", "anchors": ["packages/mcni/python/mcni/pyre_support/MpiApplication.py onServer, _init", "packages/mcni/python/mcni/pyre_support/MpiAppBase.py execute, onComputeNodes", "packages/mcni/python/mcni/pyre_support/MPILauncherBase.py launch"]}
{"id": "C275", "title": "Working in another directory leaves the working directory as it was", "statement": "A function that is run in a directory, and a sample that is loaded from a file, leave the working directory as it was, also after exceptions.", "quantifier": "all directories, functions, results and exceptions", "why_tests_cant": "Exceptions at any place.", "anchors": ["packages/mcni/python/mcni/AbstractComponent.py ChangeDirectory, run_in_dir", "packages/mccomponents/python/mccomponents/sample/__init__.py samplecomponent"]}
{"id": "C276", "title": "A component is found if exactly one supplier has it", "statement": "find gives the category and the supplier of a type if they are determined by what is asked for, nothing if no supplier has it, and an error if several have it.", "quantifier": "all suppliers, types and questions", "why_tests_cant": "All sets of suppliers and components.", "anchors": ["packages/mcni/python/mcni/_find_component.py find", "packages/mcni/python/mcni/component_suppliers.py"]}
{"id": "C277", "title": "ESS_moderator_short emits the documented pulse", "statement": "Every neutron starts on the moderator, flies through the target and has a wave length between l_low and l_high. For every such place, direction and wave length the mean weight, counted with any continuous efficiency of the time, is area * 10^4 * solid angle * interval of wave lengths * the integral over the documented pulse: I0 M(lambda, T) F(t, tau, n) (plus the same with tau1 for coupled water) + I2 / (1 + exp(chi2 lambda - 2.2)) / lambda * F(t, tau2 lambda, n2), repeated in the frame before and the frame after unless branchframe = 1.", "quantifier": "every set of accepted parameters with branches between 0 and 1, all random numbers, every continuous efficiency", "why_tests_cant": "The claim is about integrals over five random numbers, for all parameters; a simulation shows them only up to its noise.", "anchors": ["packages/legacycomponents/mcstas2/share/McStas-Components/sources/ESS_moderator_short.comp:INITIALIZE", "packages/legacycomponents/mcstas2/share/McStas-Components/sources/ESS_moderator_short.comp:TRACE"]}
{"id": "C278", "title": "ESS_moderator_long emits the documented pulse", "statement": "Every neutron starts on the moderator, flies through the target and has a wave length between l_low and l_high. In each branch (bulk or tail of the pulse, first or second spectrum) the weight times the probability of the branch is the documented density of the pulse, I(t, tau, n, d), times |dt/du| of the sampled time; the choice of the frame keeps the pulse and adds the following one.", "quantifier": "every set of accepted parameters, all random numbers", "why_tests_cant": "A weight that is wrong by a smooth factor in one of six branches changes histograms by some percent only.", "anchors": ["packages/legacycomponents/mcstas2/share/McStas-Components/sources/ESS_moderator_long.comp:INITIALIZE", "packages/legacycomponents/mcstas2/share/McStas-Components/sources/ESS_moderator_long.comp:TRACE"]}
{"id": "C279", "title": "Monochromator_curved reflects from the slab that the neutron meets", "statement": "The slabs fill the given width and height with the gaps between them, and their normals point to the focus given by RV and RH. A neutron that meets no slab is not changed. One that meets a slab is moved forward to it and either reflected, elastically and with the scattering vector of the order nearest to the condition of Bragg, or transmitted with the weight factor t0; no more than the fraction r0 is reflected. At the exact condition and with the central direction of the mosaic the reflection is that of a mirror.", "quantifier": "every set of parameters, every neutron, all random numbers", "why_tests_cant": "The defects need a neutron close to the edge of a turned slab, a radius smaller than the crystal or an incidence exactly along the normal; histograms of a simulation do not show them.", "anchors": ["packages/legacycomponents/mcstas2/share/McStas-Components/optics/Monochromator_curved.comp:INITIALIZE", "packages/legacycomponents/mcstas2/share/McStas-Components/optics/Monochromator_curved.comp:TRACE"]}
{"id": "C280", "title": "HYSPEC_Guide_curved guides neutrons along a polygon around a circle", "statement": "A neutron passes the pieces of the guide one after the other, by straight flights and mirror reflections with the reflectivity of the coating of the wall that is met, or is stopped at an entrance or where a wall does not reflect. The middles of the pieces are on a circle with the radius R, each piece is a tangent of the circle, and the change to the frame of the next piece does not move the neutron. What is returned is the neutron at the end of the guide. The loops end.", "quantifier": "every geometry with a positive length and a radius that is not 0, every number of pieces, every neutron in forward flight", "why_tests_cant": "The claim is about all positions and directions in any number of pieces; the frame of the result cannot be seen from intensities.", "anchors": ["packages/legacycomponents/mcstas2/share/McStas-Components/optics/HYSPEC_Guide_curved.comp:TRACE"]}
{"id": "C281", "title": "Guide_wavy reflects from mirrors with waviness", "statement": "A neutron outside of the opening is stopped. The others fly straight from mirror to mirror; each is mirrored, with the speed kept, at a normal that is tilted along and across the beam by angles with the given full widths at half maximum, and gets the reflectivity of the coating of this mirror (1 left, 2 right, 3 top, 4 bottom) for the momentum transfer. A neutron is sent away from the mirror.", "quantifier": "every set of parameters with a positive length, every neutron, all random numbers", "why_tests_cant": "The angles are random; a wrong width or a double reflection changes the divergence of the beam by a small amount only.", "anchors": ["packages/legacycomponents/mcstas2/share/McStas-Components/optics/Guide_wavy.comp:INITIALIZE", "packages/legacycomponents/mcstas2/share/McStas-Components/optics/Guide_wavy.comp:TRACE"]}
{"id": "C282", "title": "The parameters of a McStas component are read as they are declared", "statement": "For a list `DEFINITION|SETTING|OUTPUT PARAMETERS (...)` with declarations `[type] name [= default]`, in any layout of white space, upper or lower case, the parser returns type, name and default of every parameter in the order of the file; the state parameters are a list of names; a missing or empty list gives no parameters.", "quantifier": "every text with such a list and every list of declarations by the rules of the language", "why_tests_cant": "The parser is a set of regular expressions and splits; the texts on which they go wrong (a comma or an equal sign in quotes, a comment) are not among the components that were tried.", "anchors": ["packages/legacycomponents/mcstas2/python/mcstas2/utils/parsers/McStasComponentParser.py:_setDefParams", "packages/legacycomponents/mcstas2/python/mcstas2/utils/parsers/McStasComponentParser.py:_defParams", "packages/legacycomponents/mcstas2/python/mcstas2/utils/parsers/McStasComponentParser.py:_paramMatch", "packages/legacycomponents/mcstas2/python/mcstas2/utils/parsers/McStasComponentParser.py:_defValues"]}
{"id": "C283", "title": "The generated component has the parameters and defaults of the McStas component", "statement": "parseComponent returns the parameter `name` followed by the definition and the setting parameters in their order, each with its description and with its default: the number or the text that the declaration gives. A different name in the header or an unknown type is an error.", "quantifier": "every text, every list of declarations, every interpretation of numbers", "why_tests_cant": "A default that is lost without an error changes the simulated instrument only if the user relies on it; a test would have to know every default of every component.", "anchors": ["packages/legacycomponents/mcstas2/python/mcstas2/utils/parsers/__init__.py:parseComponent", "packages/legacycomponents/mcstas2/python/mcstas2/utils/parsers/__init__.py:_addDescription", "packages/legacycomponents/mcstas2/python/mcstas2/utils/parsers/ComponentInfo.py:Parameter"]}
{"id": "C284", "title": "The sections of a McStas component are found and SHARE is divided completely", "statement": "The text of DECLARE, INITIALIZE, TRACE, SAVE, FINALLY, MCDISPLAY and SHARE is what is between the brackets after the first head. The section SHARE is divided before the separator into header and implementation; no line is lost, and `%include \"lib\"` becomes an include of the header of the library. A section without separator is an error.", "quantifier": "every text with such sections", "why_tests_cant": "What is lost here is missing code in generated files; the failing layouts (everything on one line) are not among the components that were tried.", "anchors": ["packages/legacycomponents/mcstas2/python/mcstas2/utils/parsers/McStasComponentParser.py:_parseBodySections", "packages/legacycomponents/mcstas2/python/mcstas2/utils/parsers/__init__.py:_format_share_str", "packages/legacycomponents/mcstas2/python/mcstas2/utils/parsers/ShareIncludeParser.py:include"]}
{"id": "C285", "title": "The slits of FermiChopper turn with the chopper and have the given curvature", "statement": "The coordinates across and along the slits are those of a frame that turns around y with the frequency nu and the phase; the frame is the same after 1/nu. The walls of the slits are straight for curvature 0 and otherwise arcs of a circle with the radius 1/curvature.", "quantifier": "every frequency, phase, curvature, position and time", "why_tests_cant": "The shape of a wall is a statement about all points of it; without curvature the value used depends on what the memory held before, which a test run cannot rule out.", "anchors": ["packages/legacycomponents/mcstas2/share/McStas-Components/optics/FermiChopper.comp:FC_xrot", "packages/legacycomponents/mcstas2/share/McStas-Components/optics/FermiChopper.comp:FC_zrot", "packages/legacycomponents/mcstas2/share/McStas-Components/optics/FermiChopper.comp:INITIALIZE"]}
{"id": "C286", "title": "FermiChopper uses the geometry that is given", "statement": "Parameters with a sense are used as they are; others are an error or are changed such that the package of slits fits into the cylinder, with no more slits removed than necessary. With `time` the slits are along the beam at this time.", "quantifier": "every set of parameters", "why_tests_cant": "The parameters are real numbers with several alternative forms (width, slit, compatibility names); a test tries some.", "anchors": ["packages/legacycomponents/mcstas2/share/McStas-Components/optics/FermiChopper.comp:INITIALIZE"]}
{"id": "C287", "title": "The search for a time in FermiChopper stays in the interval and finds the time", "statement": "For a function without change of sign in the interval the search says so; otherwise the time found is in the interval and is the root.", "quantifier": "every function and interval of time", "why_tests_cant": "The search is a loop over values of a function; that no value leaves the interval for any function cannot be tested.", "anchors": ["packages/legacycomponents/mcstas2/share/McStas-Components/optics/FermiChopper.comp:FC_zintersect", "packages/legacycomponents/mcstas2/share/McStas-Components/optics/FermiChopper.comp:FC_xintersect", "packages/legacycomponents/mcstas2/share/McStas-Components/optics/FermiChopper.comp:FC_xzrot_dt"]}
{"id": "C288", "title": "FermiChopper lets neutrons pass that stay in a slit", "statement": "Without coating a neutron that meets the cylinder passes exactly if it is inside of the opening and stays in one of the Nslit slits; it then flies straight and its weight is multiplied with the efficiency. A neutron that misses the cylinder is not changed.", "quantifier": "every chopper and every neutron", "why_tests_cant": "The path is tested at three times only; which neutrons cross a wall in between depends on speed, frequency and position.", "anchors": ["packages/legacycomponents/mcstas2/share/McStas-Components/optics/FermiChopper.comp:TRACE"]}
{"id": "C289", "title": "The walls of FermiChopper are mirrors", "statement": "Where a neutron meets a wall it is reflected as by a mirror in the frame of the wall, with the reflectivity of the coating for the momentum transfer, and goes on in the same slit.", "quantifier": "every chopper with coating and every neutron", "why_tests_cant": "A reflection that is lost or has the wrong velocity lowers the transmission by some percent and has no reference value.", "anchors": ["packages/legacycomponents/mcstas2/share/McStas-Components/optics/FermiChopper.comp:TRACE"]}
{"id": "C290", "title": "The histogram of a McStas monitor has the counts at the coordinates they belong to", "statement": "The number on an axis of the histogram written for a monitor is the middle of the bin in which the monitor counted; the intensity there is the sum of the weights of the neutrons in this bin, the squared error the sum of the squares.", "quantifier": "every list of neutrons on their way to the monitor, every range and number of bins", "why_tests_cant": "A shift by half a bin or by half a turn gives a plausible picture; the statement is about every bin and every neutron.", "anchors": ["packages/legacycomponents/mcstas2/python/mcstas2/components/_proxies/monitors/E_monitor.py:get_histogram", "packages/legacycomponents/mcstas2/python/mcstas2/components/_proxies/monitors/L_monitor.py:get_histogram", "packages/legacycomponents/mcstas2/python/mcstas2/components/_proxies/monitors/TOF_monitor2.py:get_histogram", "packages/legacycomponents/mcstas2/python/mcstas2/components/_proxies/monitors/Hdiv_monitor.py:get_histogram", "packages/legacycomponents/mcstas2/python/mcstas2/components/_proxies/monitors/DivPos_monitor.py:get_histogram", "packages/legacycomponents/mcstas2/python/mcstas2/components/_proxies/monitors/Divergence_monitor.py:get_histogram", "packages/legacycomponents/mcstas2/python/mcstas2/components/_proxies/monitors/PSD_monitor.py:get_histogram", "packages/legacycomponents/mcstas2/python/mcstas2/components/_proxies/monitors/IQE_monitor.py:get_histogram", "packages/legacycomponents/mcstas2/python/mcstas2/components/_proxies/monitors/PSD_monitor_4PI.py:get_histogram"]}
{"id": "C291", "title": "The histogram of a monitor can be made whatever the rounding", "statement": "The axis has as many numbers as the monitor has channels, for every range and number of channels, in the arithmetic of doubles.", "quantifier": "every range and every number of channels that is not too large for the precision, every way of rounding", "why_tests_cant": "Whether the number of steps is off by one depends on the last bit of quotients of doubles; which of the ranges fail is not visible from the ones tested.", "anchors": ["packages/legacycomponents/mcstas2/python/mcstas2/components/_proxies/monitors/E_monitor.py:get_histogram", "packages/legacycomponents/mcstas2/python/mcstas2/components/_proxies/monitors/L_monitor.py:get_histogram", "packages/legacycomponents/mcstas2/python/mcstas2/components/_proxies/monitors/TOF_monitor2.py:get_histogram", "packages/legacycomponents/mcstas2/python/mcstas2/components/_proxies/monitors/PSD_monitor.py:get_histogram", "packages/legacycomponents/mcstas2/python/mcstas2/components/_proxies/monitors/IQE_monitor.py:get_histogram", "packages/legacycomponents/mcstas2/python/mcstas2/components/_proxies/monitors/PSD_monitor_4PI.py:get_histogram"]}
{"id": "C292", "title": "A McStas component has the parameters that were set last", "statement": "The simulation uses for each parameter the value set last, else the one given when the component was made, else the default; reading the attribute gives the same value. A name that is no parameter is an error. restore_neutron can be switched on and off.", "quantifier": "every component, every list of keywords and every sequence of assignments", "why_tests_cant": "Two dictionaries hold the values; which of them wins depends on the order of construction and assignment.", "anchors": ["packages/legacycomponents/mcstas2/python/mcstas2/components/_proxies/base.py:Component.__init__", "packages/legacycomponents/mcstas2/python/mcstas2/components/_proxies/base.py:Component.__setattr__", "packages/legacycomponents/mcstas2/python/mcstas2/components/_proxies/base.py:Component.__getattr__", "packages/legacycomponents/mcstas2/python/mcstas2/components/_proxies/base.py:Component._cpp_instance"]}
{"id": "C293", "title": "Each round of a monitor writes the data of this round", "statement": "The file has the data of the neutrons of this round only; no other file changes; a file that exists is an error unless overwriting is allowed; with restore_neutron the neutrons are as before. Different monitors write different files.", "quantifier": "every component, every sequence of rounds, every set of files", "why_tests_cant": "Data of an earlier round or of another monitor that get in are only visible in sums.", "anchors": ["packages/legacycomponents/mcstas2/python/mcstas2/components/_proxies/base.py:Component.process", "packages/legacycomponents/mcstas2/python/mcstas2/components/_proxies/monitors/base.py:Component._dumpData", "packages/legacycomponents/mcstas2/python/mcstas2/components/_proxies/monitors/base.py:Component._histogramOutputFilename", "packages/legacycomponents/mcstas2/python/mcstas2/components/_proxies/monitors/base.py:saveHistogram"]}
{"id": "C294", "title": "The I(Q,E) monitor is normalized by the coverage of its channels", "statement": "The data of each channel are divided by the normalization for the parameters of the monitor; channels without coverage are not divided, and never is divided by 0.", "quantifier": "every normalization and every channel", "why_tests_cant": "The normalization is kept between rounds; whether it fits the parameters depends on what was done between them.", "anchors": ["packages/legacycomponents/mcstas2/python/mcstas2/components/_proxies/monitors/IQE_monitor.py:getNormalization", "packages/legacycomponents/mcstas2/python/mcstas2/components/_proxies/monitors/IQE_monitor.py:Component._get_normalization"]}
{"id": "C295", "title": "The axes of an NDMonitor fit its counts whatever the rounding", "statement": "An axis of n bins has n + 1 boundaries in the arithmetic of doubles, near the exact ends of the bins, so that the counts of neutrons can always be added to the histogram.", "quantifier": "every range and every number of bins that are wide compared with the rounding of the ends, every number of axes, every way of rounding", "why_tests_cant": "Whether a step is lost or gained depends on the last bits of quotients; a test tries a few ranges.", "anchors": ["packages/mcni/python/mcni/components/NDMonitor.py:NDMonitorEngine.__init__", "packages/mcni/python/mcni/components/NDMonitor.py:NDMonitorEngine.process"]}
{"id": "C296", "title": "A density of states has one energy for each value whatever the rounding", "statement": "A file with N values gives N energies, for every step and every N that fits into the file; the energies of a multiphonon calculation are three times as many as those given.", "quantifier": "every step, every number of values, every way of rounding", "why_tests_cant": "As before: the number of steps depends on the last bit of a quotient.", "anchors": ["packages/mccomponents/python/mccomponents/sample/idf/DOS.py:read", "packages/mccomponents/python/mccomponents/sample/phonon/multiphonon.py:sqe"]}
{"id": "C297", "title": "Smoothing keeps the place of what is smoothed", "statement": "The smoothed signal has as many values as the signal, between its bounds, and a straight line stays as it is away from the ends.", "quantifier": "every signal, window and odd number of points", "why_tests_cant": "A shift by one point of several hundred is not visible in a plot of a density of states.", "anchors": ["packages/mccomponents/python/mccomponents/sample/phonon/utils.py:smooth"]}
{"id": "C298", "title": "The density of states used in kernels is normalised and starts with a parabola", "statement": "nice_dos gives at least 500 points with the integral 1; the first values, between 20 and 100, are on the parabola that fits them best, as many of them as it explains well; data with fewer points is interpolated on the same range; data that has this form is only normalised.", "quantifier": "every list of energies and values", "why_tests_cant": "The number of points of the parabola is found by a search over all data; the only test plots the result.", "anchors": ["packages/mccomponents/python/mccomponents/sample/phonon/utils.py:nice_dos", "packages/mccomponents/python/mccomponents/sample/phonon/utils.py:fitparabolic", "packages/mccomponents/python/mccomponents/sample/phonon/utils.py:linear_regression"]}
{"id": "C299", "title": "A density of states that is prepared is accepted by C++ and the data of the user stay as they are", "statement": "For values that are not negative the result of nice_dos passes all checks of the constructor of C++, whose second derivative is that of the parabola; with force there always is a result; the array of the caller is not changed.", "quantifier": "every density of states with some weight beyond the first hundred points", "why_tests_cant": "A failed check ends the program from C++; that it cannot happen for prepared data is a statement about two languages.", "anchors": ["packages/mccomponents/python/mccomponents/sample/phonon/utils.py:nice_dos", "packages/mccomponents/python/mccomponents/sample/phonon/LinearlyInterpolatedDOS.py:LinearlyInterpolatedDOS.__init__", "packages/mccomponents/lib/kernels/sample/phonon/LinearlyInterpolatedDOS.icc:_compute_sod"]}
{"id": "C300", "title": "The gas of a helium-3 detector absorbs as one over v", "statement": "The absorption coefficient of the gas is the density of an ideal gas of the pressure given at 300 K times 5333 barn at 2200 m/s, inversely proportional to the speed; the gas does not scatter.", "quantifier": "every pressure and every moving neutron", "why_tests_cant": "A test compares one pressure and one energy with a number from the same formula.", "anchors": ["packages/mccomponents/lib/kernels/detector/He3.cc:He3::absorption_coefficient"]}
{"id": "C301", "title": "The pixel of the resolution calculation detects with the probability of absorption", "statement": "A neutron that crosses the pixel comes out at the end of the passage with the weight of an absorption at the time asked for; averaged over the times of the passage this is the fraction absorbed.", "quantifier": "every shape, pressure, time and neutron that enters the shape", "why_tests_cant": "The mean over the times is an integral; a test sees single weights.", "anchors": ["packages/mccomponents/lib/homogeneous_scatterer/DGSSXResPixel.cc:DGSSXResPixel::interact_path1"]}
{"id": "C302", "title": "The pixel of the resolution calculation does not make weight", "statement": "No neutron leaves the pixel with a larger weight than it had.", "quantifier": "every shape, pressure, time and neutron", "why_tests_cant": "The weight depends on the path through the shape and on the time asked for.", "anchors": ["packages/mccomponents/lib/homogeneous_scatterer/DGSSXResPixel.cc:DGSSXResPixel::interact_path1", "packages/mccomponents/lib/homogeneous_scatterer/DGSSXResPixel.cc:DGSSXResPixel::interactM_path1"]}
{"id": "C303", "title": "The mean weight of Source_gen is the flux of its Maxwell spectra", "statement": "The mean weight over the wave lengths is the area times the solid angle times the sum of the fluxes of up to three normalised Maxwell spectra in the interval of wave lengths; a temperature of 0 means that this spectrum is missing.", "quantifier": "all parameters without flux file, all random numbers", "why_tests_cant": "A mean over a continuous spectrum is an integral; a test can only compare one estimate of it.", "anchors": ["packages/legacycomponents/mcstas2/share/McStas-Components/sources/Source_gen.comp:INITIALIZE", "packages/legacycomponents/mcstas2/share/McStas-Components/sources/Source_gen.comp:TRACE"]}
{"id": "C304", "title": "The wave lengths of Source_gen are those asked for", "statement": "With a mean and a spread of the wave length or the energy, or with limits for them, the neutrons have wave lengths in this interval, uniform before weighting.", "quantifier": "all parameters without flux file, all random numbers", "why_tests_cant": "Eight parameters describe the same interval; their combinations are many.", "anchors": ["packages/legacycomponents/mcstas2/share/McStas-Components/sources/Source_gen.comp:INITIALIZE", "packages/legacycomponents/mcstas2/share/McStas-Components/sources/Source_gen.comp:TRACE"]}
{"id": "C305", "title": "The neutrons of Source_gen start in the source and fly to the target", "statement": "A neutron starts in the disk, the rectangle or the volume given, flies through the target rectangle, or within the divergence given if the distance is 0, and its weight belongs to the area of the source.", "quantifier": "all parameters, all random numbers", "why_tests_cant": "A neutron that misses the target by a little is absorbed later without a message.", "anchors": ["packages/legacycomponents/mcstas2/share/McStas-Components/sources/Source_gen.comp:INITIALIZE", "packages/legacycomponents/mcstas2/share/McStas-Components/sources/Source_gen.comp:TRACE"]}
{"id": "C306", "title": "phi1 is the Debye function of order one", "statement": "phi1(T/TD) is 1/2 + 2 (T/TD)^2 times the integral of x/(e^x - 1) from 0 to TD/T, to one part in a thousand.", "quantifier": "every temperature that is not negative", "why_tests_cant": "The code is a series obtained by integration by parts; that it is the integral for every temperature is a theorem of analysis.", "anchors": ["packages/mccomponents/python/mccomponents/sample/vogel.py:phi1"]}
{"id": "C307", "title": "phi3 is the Debye function of order three", "statement": "phi3(T/TD) is 1/4 + 2 (T/TD)^4 times the integral of x^3/(e^x - 1) from 0 to TD/T.", "quantifier": "every positive temperature", "why_tests_cant": "As for phi1.", "anchors": ["packages/mccomponents/python/mccomponents/sample/vogel.py:phi3"]}
{"id": "C308", "title": "The factor B of an element is that of the Debye model", "statement": "AtomicScattering(element).B(T) is 8 pi^2 times the mean square displacement of an atom with the mass and the Debye temperature of the element, in square angstrom.", "quantifier": "every element, isotope and ion, every temperature that is not negative", "why_tests_cant": "The only test compares nickel at 300 K with a number from a thesis.", "anchors": ["packages/mccomponents/python/mccomponents/sample/atomic_scattering.py:AtomicScattering.B", "packages/mccomponents/python/mccomponents/sample/atomic_scattering.py:getDebyeTemp", "packages/mccomponents/python/mccomponents/sample/DebyeTemp.py:getT"]}
{"id": "C309", "title": "The pulse of the analytic moderators is that of Ikeda and Carpenter", "statement": "The density of the emission time is that of a slowing down time, with the fraction R followed by an exponential storage, after the delay; it is not negative, its integral is the distribution function used for sampling, and the total is one.", "quantifier": "all positive decay constants that differ, all fractions from 0 to 1, all delays and times", "why_tests_cant": "Three closed formulas in two files have to be a convolution and its integral for every parameter.", "anchors": ["packages/legacycomponents/mcstas2/share/McStas-Components/sources/SNS_source4.comp:ikeda_carpenter_function_sp", "packages/legacycomponents/mcstas2/share/McStas-Components/sources/SNS_source_analytic.comp:f_sp", "packages/legacycomponents/mcstas2/share/McStas-Components/sources/SNS_source_analytic.comp:cummulative_f_sp"]}
{"id": "C310", "title": "The time in the short pulse mode is found", "statement": "For every random number the search finds a time in the range before which this part of the pulse is emitted, up to 1e-4.", "quantifier": "all parameters, ranges and random numbers", "why_tests_cant": "The search is a mixture of bisection and secant steps with a limit of fifty; a failure needs a random number near one.", "anchors": ["packages/legacycomponents/mcstas2/share/McStas-Components/sources/SNS_source4.comp:ikeda_carpenter_function_sp_find_t", "packages/legacycomponents/mcstas2/share/McStas-Components/sources/SNS_source_analytic.comp:sample_t_from_f_sp"]}
{"id": "C311", "title": "The long pulse is the short pulse averaged over the protons", "statement": "The density of the emission time in the long pulse mode is the mean of the short pulse density over a uniform arrival of the protons, and its distribution function is its integral.", "quantifier": "all parameters, pulse lengths and times", "why_tests_cant": "The formulas have two cases and a comment which doubts one of them; only a proof settles it.", "anchors": ["packages/legacycomponents/mcstas2/share/McStas-Components/sources/SNS_source4.comp:ikeda_carpenter_function_lp", "packages/legacycomponents/mcstas2/share/McStas-Components/sources/SNS_source_analytic.comp:f_lp", "packages/legacycomponents/mcstas2/share/McStas-Components/sources/SNS_source_analytic.comp:cummulative_f_lp", "packages/legacycomponents/mcstas2/share/McStas-Components/sources/SNS_source_analytic.comp:integral_integral_IC"]}
{"id": "C312", "title": "The time in the long pulse mode is found", "statement": "For every random number the search finds a time in the range before which this part of the long pulse is emitted.", "quantifier": "all parameters, ranges and random numbers", "why_tests_cant": "As for the short pulse.", "anchors": ["packages/legacycomponents/mcstas2/share/McStas-Components/sources/SNS_source4.comp:ikeda_carpenter_function_lp_find_t", "packages/legacycomponents/mcstas2/share/McStas-Components/sources/SNS_source4.comp:intint_ikecar", "packages/legacycomponents/mcstas2/share/McStas-Components/sources/SNS_source_analytic.comp:sample_t_from_f_lp"]}
{"id": "C313", "title": "The way to draw the energy does not change the intensity", "statement": "Whether energies are drawn uniformly in energy, wavelength or lethargy, or from the table of the spectrum, the mean of the weights seen by any monitor is the integral of the spectrum over the range of energies.", "quantifier": "all spectra, ranges of energies and monitors", "why_tests_cant": "The means are integrals with different densities; a test compares estimates.", "anchors": ["packages/legacycomponents/mcstas2/share/McStas-Components/sources/SNS_source4.comp:TRACE", "packages/legacycomponents/mcstas2/share/McStas-Components/sources/SNS_source4.comp:spectral_function", "packages/legacycomponents/mcstas2/share/McStas-Components/sources/SNS_source_analytic.comp:TRACE", "packages/legacycomponents/mcstas2/share/McStas-Components/sources/SNS_source_analytic.comp:prepare_cumulative_spectral_function"]}
{"id": "C314", "title": "The weights give the number of neutrons in the window of time", "statement": "Whether times are drawn uniformly or from the distribution, they are in the window and the mean of the weights is the part of the pulse in the window.", "quantifier": "all parameters, windows and random numbers", "why_tests_cant": "The means are integrals; the two ways to draw times are chosen by a parameter.", "anchors": ["packages/legacycomponents/mcstas2/share/McStas-Components/sources/SNS_source4.comp:TRACE", "packages/legacycomponents/mcstas2/share/McStas-Components/sources/SNS_source_analytic.comp:TRACE"]}
{"id": "C315", "title": "The position and energy monitor counts each neutron in the right cell", "statement": "Every cell of PSD_TEW_monitor has number, intensity and squared intensity of exactly the neutrons that enter the monitor in this pixel with this time, energy or wavelength; a neutron that is counted goes on unchanged from where it entered, and all other ones are not touched.", "quantifier": "all sizes, numbers of channels, ranges, and lists of neutrons", "why_tests_cant": "Three channel numbers with limits at both ends are computed from any flight through a box; a test has a few neutrons.", "anchors": ["packages/legacycomponents/mcstas2/share/McStas-Components/monitors/PSD_TEW_monitor.comp:INITIALIZE", "packages/legacycomponents/mcstas2/share/McStas-Components/monitors/PSD_TEW_monitor.comp:TRACE"]}
{"id": "C316", "title": "The table of the monitor is in the units and channels it says", "statement": "The intensity of the table times the size of the cell in square centimetres and seconds, electronvolts or angstroms is the intensity of the cell, and the edges in the head of the table divide the range given by the user.", "quantifier": "all parameters and contents of cells", "why_tests_cant": "The identity holds for real numbers and all sizes.", "anchors": ["packages/legacycomponents/mcstas2/share/McStas-Components/monitors/PSD_TEW_monitor.comp:SAVE", "packages/legacycomponents/mcstas2/share/McStas-Components/monitors/PSD_TEW_monitor.comp:INITIALIZE"]}
{"id": "C317", "title": "The errors of the table are the statistical errors", "statement": "The second number of each cell is the relative standard error of its intensity, from the spread of the weights of all neutrons, and the error of the total intensity is that of the sum.", "quantifier": "all lists of neutrons with positive weights", "why_tests_cant": "The number of neutrons and their weights are unbounded; tests compare intensities, not errors.", "anchors": ["packages/legacycomponents/mcstas2/share/McStas-Components/monitors/PSD_TEW_monitor.comp:SAVE", "packages/legacycomponents/mcstas2/lib/misc_macros.h:mcget_run_num"]}
{"id": "C318", "title": "Every neutron scattered by a powder line obeys the law of Bragg", "statement": "PowderN scatters elastically: a neutron scattered by a line keeps speed, place and time, and its wavevector changes by the reciprocal lattice vector of a line of the table (spread by its width).", "quantifier": "all tables of lines, speeds, directions, random numbers and sample shapes", "why_tests_cant": "The final direction comes out of an arcsine and two rotations for any velocity; a test sees some neutrons.", "anchors": ["packages/legacycomponents/mcstas2/share/McStas-Components/samples/PowderN.comp:TRACE", "packages/legacycomponents/mcstas2/share/McStas-Components/samples/PowderN.comp:INITIALIZE"]}
{"id": "C319", "title": "Focusing the cones changes only the statistics", "statement": "With a vertical opening d_phi all scattered neutrons stay within it, and with their weights the mean of any reading is that of the unfocused cone restricted to the opening, for every neutron of the beam.", "quantifier": "all openings, Bragg angles, readings and sequences of neutrons", "why_tests_cant": "The mean is an integral, and the focusing is a variable that changes between neutrons.", "anchors": ["packages/legacycomponents/mcstas2/share/McStas-Components/samples/PowderN.comp:TRACE"]}
{"id": "C320", "title": "The cross sections of the powder are those of its lines", "statement": "The cross section of a line is wavelength^3 j F^2/(4 V^2 sin theta) times packing and Debye-Waller factor, and the attenuation of a neutron is the sum over the lines that can scatter it, incoherent scattering and absorption.", "quantifier": "all tables of lines, units, volumes and wavelengths", "why_tests_cant": "The identity holds for real numbers; a test would compare with another program.", "anchors": ["packages/legacycomponents/mcstas2/share/McStas-Components/samples/PowderN.comp:INITIALIZE", "packages/legacycomponents/mcstas2/share/McStas-Components/samples/PowderN.comp:TRACE"]}
{"id": "C321", "title": "The weights of the powder sample give single scattering", "statement": "The mean over the random choices of kind, line and point is the sum of transmitted, incoherently and coherently scattered neutrons, each attenuated along its way in the material before and behind the point of scattering.", "quantifier": "all samples, hollows, fractions, lines, neutrons and readings", "why_tests_cant": "The mean is an integral over the flight path; tests compare noisy sums.", "anchors": ["packages/legacycomponents/mcstas2/share/McStas-Components/samples/PowderN.comp:TRACE"]}
{"id": "C322", "title": "The table of lines is read as it is written", "statement": "Lines keep their multiplicity, unless a line is repeated as often as its multiplicity says, in which case all copies get 1; the columns may give the spacing and the strength in any of their forms.", "quantifier": "all tables", "why_tests_cant": "The number of lines is unbounded and repeated lines can be anywhere; a test has a few files.", "anchors": ["packages/legacycomponents/mcstas2/share/McStas-Components/samples/PowderN.comp:read_line_data"]}
{"id": "C323", "title": "The crystal has the cell that is asked for", "statement": "Single_crystal makes a cell with the given lengths and angles or edges, keeps the orientation of edges given as vectors, and its reciprocal lattice is the one of this cell.", "quantifier": "all cells, given by parameters or by the header of the table", "why_tests_cant": "The cell is real valued and there are eight ways to give it; a test tries one crystal.", "anchors": ["packages/legacycomponents/mcstas2/share/McStas-Components/samples/Single_crystal.comp:read_hkl_data"]}
{"id": "C324", "title": "The spread of a reflection is that of the mosaic blocks", "statement": "The normal distribution around a reciprocal lattice vector has the documented widths: across the vector it is that of the rotations of the mosaic blocks, for one width and for three.", "quantifier": "all lattice vectors and mosaic widths", "why_tests_cant": "The axes come from eigenvectors of a form that depends on the direction; a test would check some reflections with axes along the coordinates.", "anchors": ["packages/legacycomponents/mcstas2/share/McStas-Components/samples/Single_crystal.comp:read_hkl_data"]}
{"id": "C325", "title": "Transmission and multiple scattering have the right probabilities", "statement": "A neutron crosses the crystal with the probability exp(-S l), interacts after a way x with density S exp(-S x), and is then scattered incoherently, diffracted or absorbed in proportion to the cross sections, whatever probability of transmission is chosen for the simulation.", "quantifier": "all crystals, neutrons, events, and readings of the outgoing neutrons", "why_tests_cant": "The mean is an integral over random numbers; tests compare noisy sums.", "anchors": ["packages/legacycomponents/mcstas2/share/McStas-Components/samples/Single_crystal.comp:TRACE"]}
{"id": "C326", "title": "Diffraction by the crystal is elastic and its strength is that of the table", "statement": "A reflection is chosen in proportion to its cross section, which is the structure factor times the overlap of its spread with the sphere of constant energy; the speed is kept; in the powder mode there are cones.", "quantifier": "all tables of reflections, neutrons and random numbers", "why_tests_cant": "The overlap is an integral over a plane that depends on the neutron; a test sees peaks and not their strengths.", "anchors": ["packages/legacycomponents/mcstas2/share/McStas-Components/samples/Single_crystal.comp:TRACE"]}
{"id": "C327", "title": "The walls of an elliptical guide lie on the ellipse with the given focal points", "statement": "With option \"elliptical\" Guide_tapering makes segments of the same length whose edges are, in height and width, on the ellipse through the edge of the entrance with one focal point linh (linw) before the entrance and the other louth (loutw) behind the exit; segments join without gaps; without focal points the walls are plane.", "quantifier": "all sizes, lengths, focal distances and numbers of segments", "why_tests_cant": "A real valued family of curves with any number of segments; a test can only compare some sizes with numbers from the same formula.", "anchors": ["packages/legacycomponents/mcstas2/share/McStas-Components/optics/Guide_tapering.comp:INITIALIZE"]}
{"id": "C328", "title": "The walls of a parabolical guide lie on the parabola with the given focal point", "statement": "With option \"parabolical\" the edges of all segments are on the parabola through the edge of the entrance with its focal point before the entrance or behind the exit; two focal points for one direction are refused.", "quantifier": "all sizes, lengths, focal distances and numbers of segments", "why_tests_cant": "A real valued family of curves with any number of segments.", "anchors": ["packages/legacycomponents/mcstas2/share/McStas-Components/optics/Guide_tapering.comp:INITIALIZE"]}
{"id": "C329", "title": "The segments of a file are those of the guide, and the guide is bent as asked for", "statement": "With option \"file=...\" every line behind the first three is a segment of the guide; the guide as a whole is bent by its length divided by the radius of curvature.", "quantifier": "all files, numbers of segments and radii", "why_tests_cant": "The number of lines is unbounded, and what is wrong depends on the last byte of the file or on an unrelated parameter.", "anchors": ["packages/legacycomponents/mcstas2/share/McStas-Components/optics/Guide_tapering.comp:INITIALIZE"]}
{"id": "C330", "title": "Neutrons fly through the segments by straight flights and reflections", "statement": "A neutron passes the segments one after the other by straight flights inside the walls and reflections with the reflectivity of the mirror hit, or is stopped at an entrance or mirror; the speed is kept, the weight does not grow; in a curved guide a neutron that does not touch the walls goes on straight.", "quantifier": "all guides, neutrons and numbers of reflections", "why_tests_cant": "Neutrons and numbers of reflections are unbounded; the loss in curved guides looks like the expected loss by curvature.", "anchors": ["packages/legacycomponents/mcstas2/share/McStas-Components/optics/Guide_tapering.comp:TRACE"]}
{"id": "C331", "title": "The application that is started gets the arguments of the user", "statement": "The program that an instrument built from a list of components writes to run.sh starts the application with exactly the arguments of the user, one by one, and the directory for post-processing scripts.", "quantifier": "all arguments, interpreters and work directories", "why_tests_cant": "Arguments are arbitrary texts that pass a shell; tests only use harmless ones.", "anchors": ["packages/mcvine/python/mcvine/applications/InstrumentBuilder.py:build"]}
{"id": "C332", "title": "Post-processing uses the number of nodes the user asked for", "statement": "The number of nodes for post-processing is the one of the option --<launcher>.nodes=<number>, and 1 without it, whatever other arguments there are.", "quantifier": "all lists of arguments, launchers and numbers", "why_tests_cant": "What goes wrong depends on the text of an unrelated argument.", "anchors": ["packages/mcvine/python/mcvine/applications/InstrumentBuilder.py:_get_nodes_option"]}
{"id": "C333", "title": "Post-processing scripts are run behind a successful simulation, and nothing is deleted before they are done", "statement": "Every script that a successful simulation left is run with the number of nodes asked for, in order, until one fails; none is run behind a failed simulation; the work directory is removed only when all have succeeded.", "quantifier": "all simulations, scripts, launchers and results of commands", "why_tests_cant": "The order of effects under any combination of failures; tests run one good case.", "anchors": ["packages/mcvine/python/mcvine/applications/InstrumentBuilder.py:build", "packages/mcni/python/mcni/__init__.py:run_ppsd_in_parallel"]}
{"id": "C334", "title": "Every component of the list becomes a facility of the instrument", "statement": "The instrument made from a list of names has exactly these names as facilities.", "quantifier": "all lists of names", "why_tests_cant": "The names share a namespace with the helpers of the loop, so what goes wrong depends on particular names.", "anchors": ["packages/mcvine/python/mcvine/applications/InstrumentBuilder.py:_build"]}
{"id": "C335", "title": "The report about two sets of settings tells exactly their differences", "statement": "The report made from the comparison of two registries has a line for each setting (besides names) with different values, with both values, and for each component that only one of them has; it has no other such lines; all depths of nesting are covered.", "quantifier": "all pairs of registries of any depth", "why_tests_cant": "Registries are trees of any depth and width; tests compare two small ones.", "anchors": ["packages/mcni/python/mcni/pyre_support/compareRegistry.py:compare", "packages/mcni/python/mcni/pyre_support/compareRegistry.py:createReport", "packages/mcni/python/mcni/pyre_support/RegistryToDict.py:Renderer.onRegistry"]}
{"id": "C336", "title": "A report without differences means equal settings", "statement": "If the report tells no difference both registries are equal; a registry does not differ from itself.", "quantifier": "all pairs of registries of any depth", "why_tests_cant": "A claim about all pairs; what is lost in the report is lost in a test of it, too.", "anchors": ["packages/mcni/python/mcni/pyre_support/compareRegistry.py:compare", "packages/mcni/python/mcni/pyre_support/compareRegistry.py:createReport"]}
{"id": "C337", "title": "The variables of DECLARE become members of the type that C gives them", "statement": "Every variable declared in the DECLARE section of a component of McStas becomes a member of the class made for it, in the same order, with the name and type that the declaration means in C.", "quantifier": "all sections with any number of declarations, variables, stars and blanks", "why_tests_cant": "Texts are unbounded; a wrong type or a member that vanished in a comment may compile, and the tests convert a few components.", "anchors": ["packages/legacycomponents/mcstas2/python/mcstas2/wrappers/component2cppClass/component2cppClass.py:_parse", "packages/legacycomponents/mcstas2/python/mcstas2/wrappers/component2cppClass/component2cppClass.py:_parse_declaration"]}
{"id": "C338", "title": "The output parameters of a component are public members", "statement": "Of the variables in DECLARE exactly those that the component lists as output parameters become public members; the others are private.", "quantifier": "all sections and lists of output parameters", "why_tests_cant": "A statement about all declarations; the tests look at one component.", "anchors": ["packages/legacycomponents/mcstas2/python/mcstas2/wrappers/component2cppClass/component2cppClass.py:component2cppClass"]}
{"id": "C339", "title": "The parameters of a component have the values given to the constructor before INITIALIZE begins", "statement": "The constructor of the class assigns the value of each argument to the member of the parameter before the text of INITIALIZE, and assigns nothing else.", "quantifier": "all lists of parameters and values", "why_tests_cant": "Which name an assignment means depends on the other parameters; tests use a few fixed lists.", "anchors": ["packages/legacycomponents/mcstas2/python/mcstas2/wrappers/component2cppClass/component2cppClass.py:createCppClass"]}
{"id": "C340", "title": "The information about a component survives in the module made for it", "statement": "When the python module that is written for a component of McStas is imported, its variable info is the information that the parser read from the component: the same texts, numbers, lists and objects, nested as they were.", "quantifier": "all values of any depth, all texts", "why_tests_cant": "What is written is a program whose variables may overwrite each other and whose texts are read again as python; a test of a few components sees none of this.", "anchors": ["packages/legacycomponents/mcstas2/python/mcstas2/wrappers/pymodule/factorymethod_py.py:inst2str", "packages/legacycomponents/mcstas2/python/mcstas2/wrappers/pymodule/factorymethod_py.py:generate"]}
{"id": "C341", "title": "The factory hands the values of the user to the constructor", "statement": "A call of the factory of a component with any mixture of positional and keyword arguments calls the constructor with the value of the user for each parameter, or its default, in the order of the parameters; calls with too many, unknown or repeated arguments are refused.", "quantifier": "all lists of parameters and calls", "why_tests_cant": "It depends on the names of the parameters, which share a scope with imports; tests use components without such names.", "anchors": ["packages/legacycomponents/mcstas2/python/mcstas2/wrappers/pymodule/factorymethod_py.py:template", "packages/legacycomponents/mcstas2/python/mcstas2/wrappers/pymodule/factorymethod_py.py:_build_kwds_str", "packages/legacycomponents/mcstas2/python/mcstas2/wrappers/pymodule/factorymethod_py.py:_build_args_str"]}
{"id": "C342", "title": "Neutrons of a cylindrical moderator of the second target station start on its face", "statement": "Neutrons start on the cylindrical face of the moderator, turned as asked for, within its height and width, in both modes of distribution.", "quantifier": "all sizes, radii, angles and random numbers", "why_tests_cant": "Only for a moderator that is turned and one of the modes the edges are wrong; the picture of the source looks right.", "anchors": ["packages/legacycomponents/mcstas2/share/McStas-Components/sources/STS_Source.comp:INITIALIZE", "packages/legacycomponents/mcstas2/share/McStas-Components/sources/STS_Source.comp:TRACE"]}
{"id": "C343", "title": "Neutrons of a disk moderator of the second target station are spread evenly over the disk", "statement": "Neutrons start in the plane of the disk within the radius that is used, with the same density everywhere.", "quantifier": "all radii, angles and random numbers", "why_tests_cant": "A distribution over a continuum; tests see histograms.", "anchors": ["packages/legacycomponents/mcstas2/share/McStas-Components/sources/STS_Source.comp:TRACE"]}
{"id": "C344", "title": "The moderators of the second target station aim at the focusing rectangle", "statement": "Every neutron passes the rectangle focus_xw x focus_yh at the distance dist.", "quantifier": "all windows, distances, places on the moderator and random numbers", "why_tests_cant": "Neutrons that miss the rectangle are lost behind it without a message.", "anchors": ["packages/legacycomponents/mcstas2/share/McStas-Components/sources/STS_Source.comp:TRACE"]}
{"id": "C345", "title": "The weight of a neutron of the second target station is made of solid angle, area, power and frequency", "statement": "The weight has as factors the solid angle of the directions, the used part of the area of the moderator, the power over that of the file, and the frequency of the file over the frequency.", "quantifier": "all windows, sizes, powers and frequencies", "why_tests_cant": "The error is a factor in all weights and only seen by a comparison with another calculation.", "anchors": ["packages/legacycomponents/mcstas2/share/McStas-Components/sources/STS_Source.comp:INITIALIZE"]}
{"id": "C346", "title": "The settings of a pyre component are the parameters of the component of McStas", "statement": "The pyre component made for a component of McStas has one setting for each parameter, with its name, type, default and description, and no others; types that cannot be set are refused.", "quantifier": "all lists of parameters", "why_tests_cant": "The settings are made in a loop inside of the body of a class, whose own variables share the names; tests use two parameters a and b.", "anchors": ["packages/legacycomponents/mcstas2/python/mcstas2/utils/pyre_support/ElementaryComponentGenerator.py:Generator.__call__", "packages/legacycomponents/mcstas2/python/mcstas2/utils/pyre_support/ElementaryComponentGenerator.py:_trait_str", "packages/legacycomponents/mcstas2/python/mcstas2/utils/pyre_support/ElementaryComponentGenerator.py:_trait_type_str"]}
{"id": "C347", "title": "The settings of a pyre component reach the constructor", "statement": "When the component is started its constructor gets the value of the user for each parameter, or its default, under the name of the parameter, and the name of the component.", "quantifier": "all lists of parameters, values and names", "why_tests_cant": "It needs a component with a parameter of an unlucky name to fail.", "anchors": ["packages/legacycomponents/mcstas2/python/mcstas2/utils/pyre_support/ElementaryComponentGenerator.py:Generator.__call__"]}
{"id": "C348", "title": "The list of components shows every component once under its category and supplier", "statement": "mcvine component list, with or without a category and a supplier, prints exactly the components that the suppliers have and the options ask for; no category twice; an unknown supplier is refused.", "quantifier": "all suppliers, categories and options", "why_tests_cant": "Tests print the lists of one installation and look at nothing.", "anchors": ["packages/mcvine/python/mcvine/cli/component.py:list", "packages/mcni/python/mcni/_component_listing.py:listallcomponentcategories", "packages/mcni/python/mcni/_component_listing.py:listcomponentsincategory"]}
{"id": "C349", "title": "Components of McStas are listed if they have a file or were registered", "statement": "The components that are listed in a category of McStas are those with a file in the library and those that were compiled by the user, each once, in all categories that are listed.", "quantifier": "all libraries and registries", "why_tests_cant": "It needs a component of the user in a category of its own, which no test has.", "anchors": ["packages/legacycomponents/mcstas2/python/mcstas2/__init__.py:listallcomponentcategories", "packages/legacycomponents/mcstas2/python/mcstas2/__init__.py:listcomponentsincategory", "packages/legacycomponents/mcstas2/python/mcstas2/__init__.py:listdefaultcomponentsincategory"]}
{"id": "C350", "title": "The specifier that mcvine component info prints stands for the component it describes", "statement": "The specifier that is printed with the description of a component, used for a simulation, gives that component with the same arguments.", "quantifier": "all suppliers, types, arguments and options", "why_tests_cant": "Description and use are done by different programs; no test puts them together.", "anchors": ["packages/mcvine/python/mcvine/cli/component.py:info", "packages/mcvine/python/mcvine/cli/component.py:_getSpecifier", "packages/mcni/python/mcni/pyre_support/NeutronComponentFacility.py:_decode"]}
{"id": "C351", "title": "The file of events of a detector system has the events of all steps", "statement": "After a simulation the file of events of a detector system has exactly the events of all steps and processes, with weights divided by the total number of samples, for any directory of output; an older file is replaced only with overwrite_datafiles.", "quantifier": "all directories, files, events and numbers of samples", "why_tests_cant": "The files are put together by a command of the shell that is made from names; with most names it works.", "anchors": ["packages/mccomponents/python/mccomponents/detector/DetectorSystemFromXml.py:merge_and_normalize_serial", "packages/mccomponents/python/mccomponents/detector/event_utils.py:mergeEventFiles", "packages/mccomponents/python/mccomponents/detector/event_utils.py:normalizeEventFile"]}
{"id": "C352", "title": "Appending neutrons to a buffer adds exactly the asked-for neutrons", "statement": "appendNeutrons adds to the end of a buffer the neutrons of the asked-for region of another buffer (all without arguments), in their order; nothing else changes, and a region that does not exist is an error.", "quantifier": "all buffers, also the same one twice, all contents, amounts of memory and indices of all kinds", "why_tests_cant": "What happens depends on how much memory the vector has to spare; reading freed memory often gives the right numbers.", "anchors": ["packages/mcni/python/mcni/bindings/boostpython/_patch_neutronevents_bp_interface.py:NEB_appendNeutrons", "packages/mcni/mcnibpmodule/wrap_neutron.cc:Evts_append_events_it", "packages/mcni/mcnibpmodule/wrap_neutron.cc:Evts_append_events"]}
{"id": "C353", "title": "Neutrons of a buffer can be read and changed by their index", "statement": "b[i] is the neutron of index i, b[i] = n and b[i].probability = p change that neutron in the buffer and no other, and an index outside is an IndexError.", "quantifier": "all buffers, indices and neutrons", "why_tests_cant": "Memory behind the end is mostly readable, so that a test sees no failure.", "anchors": ["packages/mcni/mcnibpmodule/wrap_vector.h:v_getitem", "packages/mcni/mcnibpmodule/wrap_vector.h:v_setitem", "packages/mcni/mcnibpmodule/wrap_neutron.cc:wrap_neutron"]}
{"id": "C354", "title": "A buffer made from an array has the neutrons of the array", "statement": "from_npyarr and neutrons_from_npyarr copy the rows of an array, as numpy shows them, to the neutrons of a buffer; an array made of a buffer gives back its neutrons.", "quantifier": "all arrays of doubles with ten columns or without columns, and their views; all buffers", "why_tests_cant": "Tests use arrays that were just made; a view of rows has the same shape but other addresses.", "anchors": ["packages/mcni/python/mcni/bindings/boostpython/_patch_neutronevents_bp_interface.py:NEB_fromnpyarr", "packages/mcni/python/mcni/bindings/boostpython/_patch_neutronevents_bp_interface.py:cevents_from_npyarr", "packages/mcni/python/mcni/neutron_storage/__init__.py:neutrons_from_npyarr", "packages/mcni/lib/neutron/event_cevent_conversion.cc:events_fromCevents"]}
{"id": "C355", "title": "The texts given to a component of McStas live as long as the component", "statement": "The binding made for a component takes the arguments of the constructor in their order, and keeps exactly the arguments that are texts alive as long as the component; a type that is not known is refused.", "quantifier": "all lists of arguments with any types", "why_tests_cant": "A text whose memory was given back is often still readable; the text of the template arguments is only seen by a compiler.", "anchors": ["packages/legacycomponents/mcstas2/python/mcstas2/wrappers/binding/boostpython/wrap_cc.py:_build_policies", "packages/legacycomponents/mcstas2/python/mcstas2/wrappers/binding/boostpython/wrap_cc.py:_build_args_str", "packages/legacycomponents/mcstas2/python/mcstas2/wrappers/binding/boostpython/wrap_cc.py:generate"]}
{"id": "C356", "title": "The data of a component of McStas can be read in python", "statement": "Every public member of the class made for a component (its parameters and output parameters) can be read in python, as an attribute or as an address; nothing else is made readable.", "quantifier": "all lists of members with any names and types", "why_tests_cant": "Components differ in the types of their variables; tests read those of a few monitors.", "anchors": ["packages/legacycomponents/mcstas2/python/mcstas2/wrappers/binding/boostpython/wrap_cc.py:_ispointer", "packages/legacycomponents/mcstas2/python/mcstas2/wrappers/binding/boostpython/wrap_cc.py:_isofbasictype", "packages/legacycomponents/mcstas2/python/mcstas2/wrappers/binding/boostpython/wrap_cc.py:_build_expose_datamembers", "packages/legacycomponents/mcstas2/python/mcstas2/wrappers/binding/boostpython/wrap_cc.py:_build_ptrmethods", "packages/legacycomponents/mcstas2/python/mcstas2/wrappers/binding/boostpython/wrap_cc.py:_ptrs_having_accessor_methods"]}
{"id": "C357", "title": "Every component of an instrument has its setting in the geometer", "statement": "The geometer that is made for an instrument or a group of monitors has for every component, whatever its name, a setting with the place given by the user or the origin, and nothing else about the geometer changes with the names.", "quantifier": "all lists of names of components and all settings", "why_tests_cant": "The class is made by running a text with the names; tests use a few names.", "anchors": ["packages/mcni/python/mcni/pyre_support/_geometer_utils.py:buildGeometer", "packages/mcni/python/mcni/pyre_support/_geometer_utils.py:buildGeometerFromInventory", "packages/mcni/python/mcni/pyre_support/Geometer.py:Geometer._configure", "packages/mcni/python/mcni/pyre_support/Geometer.py:Geometer._init"]}
{"id": "C358", "title": "A component is placed according to the setting of its own place", "statement": "The position and orientation of a component are those of the setting with the name under which it is used in the instrument; without a setting there is an error.", "quantifier": "all registries, all components with any names and other names", "why_tests_cant": "Names of components and of their places mostly agree.", "anchors": ["packages/mcni/python/mcni/pyre_support/Geometer.py:Geometer._positionRecord", "packages/mcni/python/mcni/pyre_support/Geometer.py:Geometer._orientationRecord"]}
{"id": "C359", "title": "\"previous\" stands for the component before", "statement": "A place relative to \"previous\" is relative to the component before in the sequence, whether the component is asked for itself or is the reference of another one.", "quantifier": "all sequences of components, all components in them", "why_tests_cant": "Chains of references with components that have names of their own are not in tests.", "anchors": ["packages/mcni/python/mcni/pyre_support/Geometer.py:Geometer._findReference", "packages/mcni/python/mcni/pyre_support/Geometer.py:Geometer._get_comp_seq"]}
{"id": "C360", "title": "The post-processing finds the files of its own simulation", "statement": "After a simulation the histograms and the numbers of neutrons of all steps of all processes of this simulation are added, each once, and nothing of other simulations.", "quantifier": "all output directories, names of files, numbers of processes and steps, and everything that is in other directories", "why_tests_cant": "Tests use directories with simple names that are new or removed before.", "anchors": ["packages/mcni/python/mcni/components/HistogramBasedMonitorMixin.py:hist_mcs_sum", "packages/mcni/python/mcni/components/HistogramBasedMonitorMixin.py:merge_and_normalize", "packages/mcni/python/mcni/components/outputs.py:mcsamples_files", "packages/mcni/python/mcni/instrument_simulator/AbstractInstrumentSimulator.py:recordNumberOfMCSamples"]}
{"id": "C361", "title": "What a storage of neutrons writes is what its post-processing merges", "statement": "For every path of a storage the neutrons of every step are written, and the post-processing merges the neutrons of all steps, each once.", "quantifier": "all paths, numbers of processes and steps, with and without overwriting", "why_tests_cant": "Tests use a single name as path and mostly one step.", "anchors": ["packages/mcni/python/mcni/pyre_components/NeutronToStorage.py:NeutronToStorage._createEngine", "packages/mcni/python/mcni/components/NeutronToStorage.py:NeutronToStorage._createEngine", "packages/mcni/python/mcni/components/NeutronToStorage.py:NeutronToStorage.create_pps", "packages/mcni/python/mcni/components/NeutronToStorage.py:merge_and_normalize_serial"]}
{"id": "C362", "title": "Asking for help starts no simulation", "statement": "If help is asked for an application or any of its components at any depth, every component is told not to start and nothing is simulated or launched; otherwise nothing changes.", "quantifier": "all trees of components, both modes of the application", "why_tests_cant": "The components form a tree that users change; tests ask for the help of few applications, without parallel computing.", "anchors": ["packages/mcni/python/mcni/pyre_support/AppInitMixin.py:_requestedForHelp_r", "packages/mcni/python/mcni/pyre_support/AppInitMixin.py:_setShowHelpOnly_r", "packages/mcni/python/mcni/pyre_support/Instrument.py:Instrument._init", "packages/mcni/python/mcni/pyre_support/MpiAppBase.py:Application.execute"]}
{"id": "C363", "title": "The histogram of PSD_TEW_monitor has the channels of the monitor", "statement": "The histogram that is made from a PSD_TEW_monitor has on its axes the channels of the monitor, and every cell holds what the monitor counted in it; every monitor that is accepted has a histogram.", "quantifier": "all sizes, ranges and numbers of channels, all contents of the monitor", "why_tests_cant": "The monitor and the histogram compute their channels separately, in two languages; tests look at few settings.", "anchors": ["packages/legacycomponents/mcstas2/python/mcstas2/components/_proxies/monitors/PSD_TEW_monitor.save.py:get_histogram", "packages/legacycomponents/mcstas2/share/McStas-Components/monitors/PSD_TEW_monitor.comp:INITIALIZE"]}
{"id": "C364", "title": "Every component has its own directory of sources and its line for cmake", "statement": "The sources that are made for different components are in different directories, and the file for cmake includes each directory exactly once; a further run loses no line and repeats none.", "quantifier": "all lists of components and all contents of the file", "why_tests_cant": "Components are found in directories that users can extend; tests do not run the build.", "anchors": ["packages/legacycomponents/mcstas2/python/mcstas2/cmake_utils.py:create_sources_for_a_component", "packages/legacycomponents/mcstas2/python/mcstas2/cmake_utils.py:component_src_subdir", "packages/legacycomponents/mcstas2/python/mcstas2/cmake_utils.py:_init_components_cmakefile"]}
{"id": "C365", "title": "Components that are new or changed get new sources, others are left alone", "statement": "A component that is not wrapped yet, or whose file is newer than what was made from it, gets new sources; the sources of the other components and other directories are not touched.", "quantifier": "all lists of components, all times of files and directories", "why_tests_cant": "What happens depends on what is installed and on times of files; tests do not run the build.", "anchors": ["packages/legacycomponents/mcstas2/python/mcstas2/cmake_utils.py:create_sources_for_components"]}
{"id": "C366", "title": "The monochromatic source of an application has the energy that is set", "statement": "If an energy is set, the neutrons of the source have this energy and fly in the direction of the velocity that is set; without an energy they have this velocity; settings that cannot be met are refused.", "quantifier": "all energies, velocities, positions, sizes, times and weights", "why_tests_cant": "Tests set few energies, all positive, along the beam.", "anchors": ["packages/mcni/python/mcni/pyre_components/MonochromaticSource.py:MonochromaticSource._configure", "packages/mcni/python/mcni/pyre_components/MonochromaticSource.py:MonochromaticSource._init"]}
{"id": "C367", "title": "The dictionary of a registry has all settings of an application", "statement": "The dictionary that is made of the registry of an application has, for every component at any depth, the name and the values of all properties, in the place of the component, and nothing in other places.", "quantifier": "all registries with components at any depth", "why_tests_cant": "Registries are trees that depend on what users put together; tests look at small ones.", "anchors": ["packages/mcni/python/mcni/pyre_support/RegistryToDict.py:Renderer.onRegistry", "packages/mcni/python/mcni/pyre_support/Instrument.py:Instrument._dumpRegsitry"]}
{"id": "C368", "title": "A component of vitess gives the neutrons that its module writes", "statement": "A component of vitess runs its module with its parameters; the neutrons afterwards are those that the module writes; if it cannot be run or fails, the user is told.", "quantifier": "all modules, whatever they do, all parameters", "why_tests_cant": "The modules are programs that are not part of the software; tests do not run them.", "anchors": ["packages/legacycomponents/vitess/vitess/Component.py:Component.process", "packages/legacycomponents/vitess/vitess/Component.py:Component._get_vitessmodulespath"]}
