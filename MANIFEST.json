{
 "claims": [
  {
   "property": "C01",
   "status": "proved",
   "theorems": [
    "Verif.Storage.C01_close_log",
    "Verif.Storage.C01_prefix_and_bounded_loss",
    "Verif.Storage.C01_monotone",
    "Verif.Storage.C01_readonly_refused"
   ],
   "note": ""
  },
  {
   "property": "C02",
   "status": "proved",
   "theorems": [
    "Verif.Storage.C02_read_cyclic",
    "Verif.Storage.C02_split_reads",
    "Verif.Storage.C02_chunking_irrelevant",
    "Verif.Storage.C02_read_nowrap",
    "Verif.Storage.C02_read_all"
   ],
   "note": ""
  },
  {
   "property": "C03",
   "status": "proved",
   "theorems": [
    "Verif.Storage.C03_seek_wrap",
    "Verif.Storage.C03_seek_nowrap"
   ],
   "note": ""
  },
  {
   "property": "C04",
   "status": "proved",
   "theorems": [
    "Verif.Idf.C04_write_layout",
    "Verif.Idf.C04_write_readall",
    "Verif.Idf.C04_append_readall",
    "Verif.Idf.C04_count",
    "Verif.Idf.C04_read_window",
    "Verif.Idf.C04_read_refines",
    "Verif.Idf.C04_dump_load"
   ],
   "note": ""
  },
  {
   "property": "C05",
   "status": "proved",
   "theorems": [
    "Verif.Storage.C05_merge_concat",
    "Verif.Storage.C05_merge_refuses",
    "Verif.Storage.C05_merge_missing"
   ],
   "note": ""
  },
  {
   "property": "C06",
   "status": "proved",
   "theorems": [
    "Verif.Storage.C06_normalize",
    "Verif.Storage.C06_chunk_independent"
   ],
   "note": ""
  },
  {
   "property": "C07",
   "status": "proved",
   "theorems": [
    "Verif.Storage.C07_normalize_crash_safe",
    "Verif.Storage.C07_trace_matches_model"
   ],
   "note": ""
  },
  {
   "property": "C08",
   "status": "proved",
   "theorems": [
    "Verif.Storage.C08_mean_intensity",
    "Verif.Storage.C08_division_independent",
    "Verif.Storage.C08_mismatch_reported"
   ],
   "note": ""
  },
  {
   "property": "C09",
   "status": "proved",
   "theorems": [
    "Verif.Run.C09_partition"
   ],
   "note": ""
  },
  {
   "property": "C10",
   "status": "proved",
   "theorems": [
    "Verif.Run.C10_batches",
    "Verif.Run.C10_parallel_total",
    "Verif.Run.C10_buffer_size"
   ],
   "note": ""
  },
  {
   "property": "C11",
   "status": "proved",
   "theorems": [
    "Verif.Run.C11_parallel_dirs_distinct",
    "Verif.Run.C11_serial_dirs_distinct"
   ],
   "note": ""
  },
  {
   "property": "C12",
   "status": "proved",
   "theorems": [
    "Verif.Storage.C12_replay"
   ],
   "note": ""
  },
  {
   "property": "C13",
   "status": "proved",
   "theorems": [
    "Verif.Run.C13_reduction",
    "Verif.Run.C13_normalized",
    "Verif.Run.C13_mismatch_reported"
   ],
   "note": ""
  },
  {
   "property": "C14",
   "status": "partial",
   "theorems": [
    "Verif.WorkDir.C14_workers_share_dir_false",
    "Verif.WorkDir.C14_workers_share_dir_partial"
   ],
   "note": "False of the code: each worker checks the work directory after others may have created it: it raises, or with overwriting deletes the output of another worker. Negation proved with a witness; the _partial theorem states what remains."
  },
  {
   "property": "C15",
   "status": "partial",
   "theorems": [
    "Verif.Cache.C15_cache_key_false",
    "Verif.Cache.C15_cache_key_partial",
    "Verif.Cache.C15_invoke_partial",
    "Verif.Cache.C15_history_partial"
   ],
   "note": "The key ignores parameter values. For one command with fixed parameters any history of invocations gives right results."
  },
  {
   "property": "C16",
   "status": "proved",
   "theorems": [
    "Verif.Frames.C16_lab",
    "Verif.Frames.C16_rigid",
    "Verif.Frames.C16_round_trip",
    "Verif.Frames.C16_chain"
   ],
   "note": ""
  },
  {
   "property": "C17",
   "status": "proved",
   "theorems": [
    "Verif.Frames.C17_proper",
    "Verif.Frames.C17_order",
    "Verif.Frames.C17_recover"
   ],
   "note": ""
  },
  {
   "property": "C18",
   "status": "proved",
   "theorems": [
    "Verif.Geometer.C18_placement",
    "Verif.Geometer.C18_bad_reference"
   ],
   "note": ""
  },
  {
   "property": "C19",
   "status": "proved",
   "theorems": [
    "Verif.Frames.C19_exact",
    "Verif.Frames.C19_deviation"
   ],
   "note": ""
  },
  {
   "property": "C20",
   "status": "proved",
   "theorems": [
    "Verif.Buffer.C20_process",
    "Verif.Buffer.C20_process_multiset",
    "Verif.Buffer.C20_processM_state",
    "Verif.Buffer.C20_processM"
   ],
   "note": ""
  },
  {
   "property": "C21",
   "status": "proved",
   "theorems": [
    "Verif.Buffer.C21_snapshot",
    "Verif.Buffer.C21_nothing_lost"
   ],
   "note": ""
  },
  {
   "property": "C22",
   "status": "proved",
   "theorems": [
    "Verif.Chain.C22_sequence"
   ],
   "note": ""
  },
  {
   "property": "C23",
   "status": "proved",
   "theorems": [
    "Verif.Monitor.C23_records"
   ],
   "note": ""
  },
  {
   "property": "C24",
   "status": "proved",
   "theorems": [
    "Verif.Detector.C24_recorded",
    "Verif.Detector.C24_injective",
    "Verif.Detector.C24_bad_index",
    "Verif.Detector.C24_bad_time",
    "Verif.Detector.C24_hierarchy"
   ],
   "note": ""
  },
  {
   "property": "C25",
   "status": "proved",
   "theorems": [
    "Verif.Detector.C25_tof",
    "Verif.Detector.C25_tof_refused",
    "Verif.Detector.C25_height"
   ],
   "note": ""
  },
  {
   "property": "C26",
   "status": "proved",
   "theorems": [
    "Verif.Monitor.C26_additive",
    "Verif.Monitor.C26_batching",
    "Verif.Monitor.C26_boundaries",
    "Verif.Monitor.C26_bad_range"
   ],
   "note": ""
  },
  {
   "property": "C27",
   "status": "proved",
   "theorems": [
    "Verif.Solid.C27_inside",
    "Verif.Solid.C27_outside",
    "Verif.Solid.C27_border",
    "Verif.Solid.C27_total",
    "Verif.Solid.C27_boundary"
   ],
   "note": ""
  },
  {
   "property": "C28",
   "status": "partial",
   "theorems": [
    "Verif.Solid.C28_encloses_partial"
   ],
   "note": "False for general rotations, see C75."
  },
  {
   "property": "C29",
   "status": "partial",
   "theorems": [
    "Verif.Solid.C29_on_surface_partial",
    "Verif.Solid.C29_none_missed_partial",
    "Verif.Solid.C29_sorted",
    "Verif.Solid.C29_total",
    "Verif.Solid.C29_sphere",
    "Verif.Solid.C29_cylinder",
    "Verif.Solid.C29_box",
    "Verif.Solid.C29_translation",
    "Verif.Solid.C29_rotation",
    "Verif.Solid.C29_dilation"
   ],
   "note": "Partial: cones are not covered by the soundness and completeness theorems; boxes need a path away from the edges (C76)."
  },
  {
   "property": "C30",
   "status": "partial",
   "theorems": [
    "Verif.Solid.C30_forward",
    "Verif.Solid.C30_hit_is_real",
    "Verif.Solid.C30_first_partial",
    "Verif.Solid.C30_inside_partial",
    "Verif.Solid.C30_nothing_ahead"
   ],
   "note": "Partial: the reported object is the first one; that one is always reported is false, see C77."
  },
  {
   "property": "C31",
   "status": "partial",
   "theorems": [
    "Verif.Flight.C31_transmission_partial",
    "Verif.Flight.C31_range",
    "Verif.Flight.C31_total",
    "Verif.Flight.C31_miss_partial",
    "Verif.Flight.C31_cut_partial",
    "Verif.Flight.C31_speed_partial"
   ],
   "note": "Partial: the exact value needs a path in general position (crossings complete, see C76; middles between crossings not within the tolerance of a surface). The attenuation of a composite is a separate property."
  },
  {
   "property": "C32",
   "status": "partial",
   "theorems": [
    "Verif.Flight.C32_incident_forward",
    "Verif.Flight.C32_exit_forward",
    "Verif.Flight.C32_incident_first_partial",
    "Verif.Flight.C32_exit_inside_partial",
    "Verif.Flight.C32_exit_border_partial",
    "Verif.Flight.C32_tof",
    "Verif.Flight.C32_exiting_partial"
   ],
   "note": "Partial: what is met along the way is proved for paths in general position and shapes without cones."
  },
  {
   "property": "C33",
   "status": "proved",
   "theorems": [
    "Verif.Composite.C33_intensity",
    "Verif.Composite.C33_no_gain",
    "Verif.Composite.C33_count",
    "Verif.Composite.C33_calls",
    "Verif.Composite.C33_single",
    "Verif.Composite.C33_dropped",
    "Verif.Composite.C33_leaving",
    "Verif.Composite.C33_frames"
   ],
   "note": ""
  },
  {
   "property": "C34",
   "status": "proved",
   "theorems": [
    "Verif.Homog.C34_entry",
    "Verif.Homog.C34_channels",
    "Verif.Homog.C34_absorption",
    "Verif.Homog.C34_scattering",
    "Verif.Homog.C34_transmission",
    "Verif.Homog.C34_kernel",
    "Verif.Homog.C34_multiple",
    "Verif.Homog.C34_conservation"
   ],
   "note": ""
  },
  {
   "property": "C35",
   "status": "proved",
   "theorems": [
    "Verif.CKernel.C35_construct",
    "Verif.CKernel.C35_frequency",
    "Verif.CKernel.C35_selected",
    "Verif.CKernel.C35_scatter",
    "Verif.CKernel.C35_absorb",
    "Verif.CKernel.C35_coefficient"
   ],
   "note": ""
  },
  {
   "property": "C36",
   "status": "partial",
   "theorems": [
    "Verif.Kinem.C36_sqe_partial",
    "Verif.Kinem.C36_sqe_accuracy",
    "Verif.Kinem.C36_focused_partial",
    "Verif.Kinem.C36_sq_partial",
    "Verif.Kinem.C36_sqe_defined",
    "Verif.Kinem.C36_constQE",
    "Verif.Kinem.C36_constQE_defined",
    "Verif.Kinem.C36_constE",
    "Verif.Kinem.C36_constvQE",
    "Verif.Kinem.C36_elastic",
    "Verif.Kinem.C36_eq_partial",
    "Verif.Kinem.C36_layer_false"
   ],
   "note": "Partial: kernels with this basis need a direction of flight outside of the layer around the z axis; accuracy inside the layer is proved for S(Q,E). The constant-(Q,E), constant-E, constant-vector-Q, isotropic and S(Q vector) kernels are exact for all neutrons."
  },
  {
   "property": "C37",
   "status": "partial",
   "theorems": [
    "Verif.Powder.C37_peak",
    "Verif.Powder.C37_coefficient",
    "Verif.Powder.C37_mean",
    "Verif.Powder.C37_slow",
    "Verif.Powder.C37_history_partial",
    "Verif.Powder.C37_history_false"
   ],
   "note": "Partial: independence of history is proved without focusing (d_phi = 0). Momentum transfer, choice of peaks, coefficient and expected weight are proved in full for kernels without line width. An empty list of peaks is undefined behaviour in the code and excluded by the hypotheses."
  },
  {
   "property": "C38",
   "status": "proved",
   "theorems": [
    "Verif.Bragg.C38_choice",
    "Verif.Bragg.C38_expectation",
    "Verif.Bragg.C38_coefficient",
    "Verif.Bragg.C38_defined"
   ],
   "note": ""
  },
  {
   "property": "C39",
   "status": "partial",
   "theorems": [
    "Verif.Table.C39_first_partial",
    "Verif.Table.C39_unique",
    "Verif.Table.C39_last_false",
    "Verif.Table.C39_equal_false"
   ],
   "note": "False of the code: `<=` in search.icc:16 makes the value of the last entry count as larger than all; with repeated entries the first is not found. Negation proved with a witness; the _partial theorem states what remains."
  },
  {
   "property": "C40",
   "status": "proved",
   "theorems": [
    "Verif.Table.C40_linear",
    "Verif.Table.C40_node",
    "Verif.Table.C40_between",
    "Verif.Table.C40_outside",
    "Verif.Table.C40_trilinear",
    "Verif.Table.C40_node3",
    "Verif.Table.C40_between3",
    "Verif.Table.C40_bilinear",
    "Verif.Table.C40_trilinear_helper",
    "Verif.Table.C40_nearest"
   ],
   "note": ""
  },
  {
   "property": "C41",
   "status": "proved",
   "theorems": [
    "Verif.Lattice.C41_reduced",
    "Verif.Lattice.C41_cell",
    "Verif.Lattice.C41_shift",
    "Verif.Lattice.C41_periodic",
    "Verif.Lattice.C41_core"
   ],
   "note": ""
  },
  {
   "property": "C42",
   "status": "proved",
   "theorems": [
    "Verif.Dos.C42_linear",
    "Verif.Dos.C42_nodes",
    "Verif.Dos.C42_sum",
    "Verif.Dos.C42_outside",
    "Verif.Dos.C42_nonneg",
    "Verif.Dos.C42_rejects",
    "Verif.Dos.C42_sod"
   ],
   "note": ""
  },
  {
   "property": "C43",
   "status": "partial",
   "theorems": [
    "Verif.IdfPhonon.C43_energies",
    "Verif.IdfPhonon.C43_momenta",
    "Verif.IdfPhonon.C43_table",
    "Verif.IdfPhonon.C43_frequencies_partial",
    "Verif.IdfPhonon.C43_type",
    "Verif.IdfPhonon.C43_polarizations_partial",
    "Verif.IdfPhonon.C43_frequencies_false",
    "Verif.IdfPhonon.C43_comment_false",
    "Verif.IdfPhonon.C43_long_false",
    "Verif.IdfPhonon.C43_dos_partial",
    "Verif.IdfPhonon.C43_dos_false",
    "Verif.IdfPhonon.C43_units_partial"
   ],
   "note": "False of the code: `Omega2.write` divides the number of branches by D and drops the remainder, so that the file cannot be read (Omega2.py:21,36); comments that are not ascii raise after the file was opened for writing (E.py:14-17), comments above 1024 characters are cut; densities of states that do not start at 0 are moved to 0 (DOS.py:27,44). Negation proved with a witness; the _partial theorem states what remains."
  },
  {
   "property": "C44",
   "status": "partial",
   "theorems": [
    "Verif.Mph.C44_reflected",
    "Verif.Mph.C44_conv",
    "Verif.Mph.C44_norm",
    "Verif.Mph.C44_power_partial",
    "Verif.Mph.C44_sqe",
    "Verif.Mph.C44_truncated_false"
   ],
   "note": "False of the code: what lies beyond the axis is cut off and the rest scaled up; with the threefold axis of `sqe` this concerns four and more phonons (multiphonon.py:54-56, 159-177). Negation proved with a witness; the _partial theorem states what remains."
  },
  {
   "property": "C45",
   "status": "partial",
   "theorems": [
    "Verif.Facility.C45_decode",
    "Verif.Facility.C45_roundtrip_partial",
    "Verif.Facility.C45_supplier_false",
    "Verif.Facility.C45_slash_false",
    "Verif.Facility.C45_empty_false"
   ],
   "note": "False of the code: the supplier is not encoded (NeutronComponentFacility.py:147-150), an argument with a slash makes decoding fail with ValueError (line 164), a single empty argument is lost (lines 173-176). Negation proved with a witness; the _partial theorem states what remains."
  },
  {
   "property": "C46",
   "status": "partial",
   "theorems": [
    "Verif.Registry.C46_newest_partial",
    "Verif.Registry.C46_listed_partial",
    "Verif.Registry.C46_retry_false",
    "Verif.Registry.C46_listed_false"
   ],
   "note": "False of the code: `register` changes its tables one after the other (Registry.py:31-37): a module without `info` raises at the first request and is handed out at the second, one without `factory` stays in the list of types. Negation proved with a witness; the _partial theorem states what remains."
  },
  {
   "property": "C47",
   "status": "proved",
   "theorems": [
    "Verif.Group.C47_same",
    "Verif.Group.C47_place",
    "Verif.Group.C47_total"
   ],
   "note": "Members get only the neutrons of positive probability, since `snapshot` drops the others; the frames of C47_place have no displacement below the tolerance of C19."
  },
  {
   "property": "C48",
   "status": "proved",
   "theorems": [
    "Verif.Lattice.C48_dual",
    "Verif.Lattice.C48_defined",
    "Verif.Lattice.C48_unique",
    "Verif.Lattice.C48_twice"
   ],
   "note": ""
  },
  {
   "property": "C49",
   "status": "partial",
   "theorems": [
    "Verif.Peaks.C49_calc",
    "Verif.Peaks.C49_spacing",
    "Verif.Peaks.C49_laz_partial",
    "Verif.Peaks.C49_laz_false"
   ],
   "note": "False of the code: `_q` of laz.py takes the rows of the reciprocal matrix instead of the columns (laz.py:137-139). Negation proved with a witness; the _partial theorem states what remains."
  },
  {
   "property": "C50",
   "status": "proved",
   "theorems": [
    "Verif.Root.C50_inside",
    "Verif.Root.C50_real",
    "Verif.Root.C50_complete"
   ],
   "note": ""
  },
  {
   "property": "C51",
   "status": "partial",
   "theorems": [
    "Verif.Storage.C51_flush_not_durable_false",
    "Verif.Storage.C51_flush_partial"
   ],
   "note": "False of the code: `Storage.flush` hands the neutrons to the Python file object but never flushes it, so the file can still be empty after flush. Negation proved with a witness; the _partial theorem states what remains."
  },
  {
   "property": "C52",
   "status": "partial",
   "theorems": [
    "Verif.Storage.C52_write_after_close_lost_false",
    "Verif.Storage.C52_write_after_close_partial"
   ],
   "note": "False of the code: `write` after `close` buffers silently; the neutrons never reach the file. Negation proved with a witness; the _partial theorem states what remains."
  },
  {
   "property": "C53",
   "status": "partial",
   "theorems": [
    "Verif.Storage.C53_read_zero_false",
    "Verif.Storage.C53_read_cursor_stays_partial"
   ],
   "note": "False of the code: `read(0)` reads the whole rest of the file (`n or default` truthiness). Negation proved with a witness; the _partial theorem states what remains."
  },
  {
   "property": "C54",
   "status": "partial",
   "theorems": [
    "Verif.Storage.C54_failed_seek_moves_cursor_false",
    "Verif.Storage.C54_failed_seek_partial"
   ],
   "note": "False of the code: `seek` assigns the cursor before checking the range. Negation proved with a witness; the _partial theorem states what remains."
  },
  {
   "property": "C55",
   "status": "partial",
   "theorems": [
    "Verif.Storage.C55_wrap_after_end_false",
    "Verif.Storage.C55_wrap_after_end_partial"
   ],
   "note": "False of the code: a wrapping read with the cursor exactly at the end of the file raises instead of starting over. Negation proved with a witness; the _partial theorem states what remains."
  },
  {
   "property": "C56",
   "status": "partial",
   "theorems": [
    "Verif.Storage.C56_lib_merge_empty_false",
    "Verif.Storage.C56_lib_merge_agrees_partial"
   ],
   "note": "False of the code: `merge_and_normalize` of the library raises ZeroDivisionError for an empty result. Negation proved with a witness; the _partial theorem states what remains."
  },
  {
   "property": "C57",
   "status": "partial",
   "theorems": [
    "Verif.Storage.C57_event_normalize_crash_false",
    "Verif.Storage.C57_event_normalize_partial"
   ],
   "note": "False of the code: `normalizeEventFile` overwrites the event file in place. Negation proved with a witness; the _partial theorem states what remains."
  },
  {
   "property": "C58",
   "status": "partial",
   "theorems": [
    "Verif.Idf.C58_torn_file_load_false",
    "Verif.Idf.C58_torn_file_read_partial"
   ],
   "note": "False of the code: `readall`/`load` raise for a file with an incomplete last record although the complete records are readable. Negation proved with a witness; the _partial theorem states what remains."
  },
  {
   "property": "C59",
   "status": "partial",
   "theorems": [
    "Verif.Idf.C59_header_count_false",
    "Verif.Idf.C59_header_count_partial"
   ],
   "note": "False of the code: `dump` passes a flat array, so the header says 10 n. Negation proved with a witness; the _partial theorem states what remains."
  },
  {
   "property": "C60",
   "status": "partial",
   "theorems": [
    "Verif.Idf.C60_checkformat_false",
    "Verif.Idf.C60_load_check_partial"
   ],
   "note": "False of the code: `checkformat` refers to the undefined name `f` and raises NameError for every file. Negation proved with a witness; the _partial theorem states what remains."
  },
  {
   "property": "C61",
   "status": "partial",
   "theorems": [
    "Verif.Idf.C61_write_changes_argument_false",
    "Verif.Idf.C61_write_keeps_data_partial"
   ],
   "note": "False of the code: `write` assigns `neutrons.shape = -1,` on the caller's array; a second write of the same array stores a wrong count. Negation proved with a witness; the _partial theorem states what remains."
  },
  {
   "property": "C62",
   "status": "partial",
   "theorems": [
    "Verif.Run.C62_every_rank_gets_share_false",
    "Verif.Run.C62_every_rank_gets_share_partial"
   ],
   "note": "False of the code: with fewer neutrons than nodes the list of shares is shorter than the number of ranks and the others fail with IndexError. Negation proved with a witness; the _partial theorem states what remains."
  },
  {
   "property": "C63",
   "status": "partial",
   "theorems": [
    "Verif.Run.C63_zero_neutrons_false",
    "Verif.Run.C63_zero_neutrons_partial"
   ],
   "note": "False of the code: zero neutrons give a buffer size or a divisor of zero and ZeroDivisionError in the application runner and the parallel script runner. Negation proved with a witness; the _partial theorem states what remains."
  },
  {
   "property": "C64",
   "status": "partial",
   "theorems": [
    "Verif.Cache.C64_rerun_command_false",
    "Verif.Cache.C64_rerun_command_partial"
   ],
   "note": "False of the code: the rebuilt command lists parameter names without values. Negation proved with a witness; the _partial theorem states what remains."
  },
  {
   "property": "C65",
   "status": "partial",
   "theorems": [
    "Verif.Frames.C65_small_displacements_false",
    "Verif.Frames.C65_small_displacements_partial"
   ],
   "note": "False of the code: displacements up to 1e-8 are skipped in every step, so that the errors of n steps add up to n*1e-8. Negation proved with a witness; the _partial theorem states what remains."
  },
  {
   "property": "C66",
   "status": "partial",
   "theorems": [
    "Verif.Frames.C66_recover_all_angles_false",
    "Verif.Frames.C66_recover_all_angles_partial"
   ],
   "note": "False of the code: within 1e-8 of gimbal lock the x angle is dropped and the self check then raises RuntimeError. Negation proved with a witness; the _partial theorem states what remains."
  },
  {
   "property": "C67",
   "status": "partial",
   "theorems": [
    "Verif.Geometer.C67_reregister_false",
    "Verif.Geometer.C67_reregister_partial"
   ],
   "note": "False of the code: the absolute positions computed before are kept in a cache that registration does not clear. Negation proved with a witness; the _partial theorem states what remains."
  },
  {
   "property": "C68",
   "status": "partial",
   "theorems": [
    "Verif.Buffer.C68_snapshot_range_false",
    "Verif.Buffer.C68_snapshot_range_partial"
   ],
   "note": "False of the code: `snapshot(n)` iterates over `begin .. begin+n` without checking the size. Negation proved with a witness; the _partial theorem states what remains."
  },
  {
   "property": "C69",
   "status": "partial",
   "theorems": [
    "Verif.Chain.C69_same_name_false",
    "Verif.Chain.C69_same_name_partial"
   ],
   "note": "False of the code: the nodes are kept in a dictionary by component name, a component is overwritten by a later one of the same name. Negation proved with a witness; the _partial theorem states what remains."
  },
  {
   "property": "C70",
   "status": "partial",
   "theorems": [
    "Verif.Monitor.C70_pixel_false",
    "Verif.Monitor.C70_range_false",
    "Verif.Monitor.C70_pixel_partial"
   ],
   "note": "False of the code: the column coordinate is not truncated before it is multiplied by the number of rows. Negation proved with a witness; the _partial theorem states what remains."
  },
  {
   "property": "C71",
   "status": "partial",
   "theorems": [
    "Verif.Monitor.C71_no_hits_false",
    "Verif.Monitor.C71_first_batch_false",
    "Verif.Monitor.C71_no_hits_partial"
   ],
   "note": "False of the code: `events` is only assigned when there are hits: a batch without hits writes the old events again, or fails if it is the first. Negation proved with a witness; the _partial theorem states what remains."
  },
  {
   "property": "C72",
   "status": "partial",
   "theorems": [
    "Verif.Monitor.C72_flying_away_false",
    "Verif.Monitor.C72_flying_away_partial"
   ],
   "note": "False of the code: the flight time may be negative: neutrons behind the monitor are moved back and counted. Negation proved with a witness; the _partial theorem states what remains."
  },
  {
   "property": "C73",
   "status": "partial",
   "theorems": [
    "Verif.Detector.C73_empty_pack_false",
    "Verif.Detector.C73_empty_pack_partial"
   ],
   "note": "False of the code: an empty container appends to the index shape but not to the layer names: the next container of the level raises IndexError. Negation proved with a witness; the _partial theorem states what remains."
  },
  {
   "property": "C74",
   "status": "partial",
   "theorems": [
    "Verif.Detector.C74_single_pixel_false",
    "Verif.Detector.C74_single_pixel_partial"
   ],
   "note": "False of the code: the tube length is divided by the number of pixels minus one. Negation proved with a witness; the _partial theorem states what remains."
  },
  {
   "property": "C75",
   "status": "partial",
   "theorems": [
    "Verif.Solid.C75_rotated_false",
    "Verif.Solid.C75_upright_partial"
   ],
   "note": "False of the code: the box of a rotated shape keeps the longest edge of the unrotated box instead of the rotated corners, too small by up to a factor sqrt 3. Negation proved with a witness; the _partial theorem states what remains."
  },
  {
   "property": "C76",
   "status": "partial",
   "theorems": [
    "Verif.Solid.C76_edges_false",
    "Verif.Solid.C76_no_edges_partial"
   ],
   "note": "False of the code: faces are taken without their edges, so a path through two edges has no intersections. Negation proved with a witness; the _partial theorem states what remains."
  },
  {
   "property": "C77",
   "status": "partial",
   "theorems": [
    "Verif.Solid.C77_missed_false",
    "Verif.Solid.C77_found_partial"
   ],
   "note": "False of the code: only the middle of the first two crossings is examined; two coinciding crossings (e.g. along the axis of a hollow cylinder) hide every object behind. Negation proved with a witness; the _partial theorem states what remains."
  },
  {
   "property": "C78",
   "status": "partial",
   "theorems": [
    "Verif.Flight.C78_backward_false",
    "Verif.Flight.C78_inside_partial"
   ],
   "note": "False of the code: the last of all intersections of the line is taken, also when it is behind the neutron. Negation proved with a witness; the _partial theorem states what remains."
  },
  {
   "property": "C79",
   "status": "partial",
   "theorems": [
    "Verif.Homog.C79_place_false",
    "Verif.Homog.C79_weight_partial"
   ],
   "note": "False of the code: the absorbed part is handed to the kernel at the place and time of entry (HomogeneousNeutronScatterer.cc:249-251), so a detector tube in the multiple mode records every neutron on its surface. Negation proved with a witness; the _partial theorem states what remains."
  },
  {
   "property": "C80",
   "status": "partial",
   "theorems": [
    "Verif.Homog.C80_zero_weight_false",
    "Verif.Homog.C80_zero_weight_partial"
   ],
   "note": "False of the code: `rand()/RAND_MAX` may be 1, then the last channel is chosen even with weight 0 and the probability becomes (sum)/0. Negation proved with a witness; the _partial theorem states what remains."
  },
  {
   "property": "C81",
   "status": "partial",
   "theorems": [
    "Verif.Composite.C81_endpoint_false",
    "Verif.Composite.C81_endpoint_partial"
   ],
   "note": "False of the code: the start of the flight is converted to the frame of the constituent, the end point is not (CompositeNeutronScatterer_Impl.cc:178-202). Negation proved with a witness; the _partial theorem states what remains."
  },
  {
   "property": "C82",
   "status": "partial",
   "theorems": [
    "Verif.Composite.C82_nested_false",
    "Verif.Composite.C82_undefined_false",
    "Verif.Composite.C82_others_partial"
   ],
   "note": "False of the code: `interact_path1` and `interactM_path1` lack a return statement; `calculate_attenuation` is not const and so does not override the virtual function, which returns 1. Negation proved with a witness; the _partial theorem states what remains."
  },
  {
   "property": "C83",
   "status": "partial",
   "theorems": [
    "Verif.Composite.C83_uninitialised_false",
    "Verif.Composite.C83_uninitialised_partial"
   ],
   "note": "False of the code: `min_neutron_probability` is not initialised by the constructor of the implementation class. Negation proved with a witness; the _partial theorem states what remains."
  },
  {
   "property": "C84",
   "status": "partial",
   "theorems": [
    "Verif.Composite.C84_alarm_false",
    "Verif.Composite.C84_unnoticed_false",
    "Verif.Composite.C84_reported_partial"
   ],
   "note": "False of the code: the shapes are compared in their own frames, positions and orientations are ignored. Negation proved with a witness; the _partial theorem states what remains."
  },
  {
   "property": "C85",
   "status": "partial",
   "theorems": [
    "Verif.Composite.C85_nested_false",
    "Verif.Composite.C85_crossing_partial"
   ],
   "note": "False of the code: only surface points of the first shape are tested against the second, so a shape strictly inside an earlier one is never noticed. Negation proved with a witness; the _partial theorem states what remains."
  },
  {
   "property": "C86",
   "status": "partial",
   "theorems": [
    "Verif.Composite.C86_second_false",
    "Verif.Composite.C86_first_partial"
   ],
   "note": "False of the code: the default number of loops in interactM_path1 is 1: after one constituent the neutron is moved to the surface of the composite. Negation proved with a witness; the _partial theorem states what remains."
  },
  {
   "property": "C87",
   "status": "partial",
   "theorems": [
    "Verif.CKernel.C87_weight_partial",
    "Verif.CKernel.C87_zero_false"
   ],
   "note": "False of the code: `w or 1.` turns weight 0 into 1 (KernelComputationEngineRenderer.py:52). Negation proved with a witness; the _partial theorem states what remains."
  },
  {
   "property": "C88",
   "status": "partial",
   "theorems": [
    "Verif.CKernel.C88_factor_partial",
    "Verif.CKernel.C88_average_false",
    "Verif.CKernel.C88_total_false"
   ],
   "note": "False of the code: with `average`, or with a kernel of total scattering, the coefficient is the mean or that of one kernel while scattering carries the sum. Negation proved with a witness; the _partial theorem states what remains."
  },
  {
   "property": "C89",
   "status": "partial",
   "theorems": [
    "Verif.CKernel.C89_mean_partial",
    "Verif.CKernel.C89_sum_false"
   ],
   "note": "False of the code: always the mean (CompositeScatteringKernel.cc:137), although CompositeScatteringKernel.h:37 says only if average is set. Negation proved with a witness; the _partial theorem states what remains."
  },
  {
   "property": "C90",
   "status": "partial",
   "theorems": [
    "Verif.CKernel.C90_isotropic_partial",
    "Verif.CKernel.C90_direction_false"
   ],
   "note": "False of the code: the velocity is converted to the frame of the constituent for scattering but not for the coefficients. Negation proved with a witness; the _partial theorem states what remains."
  },
  {
   "property": "C91",
   "status": "partial",
   "theorems": [
    "Verif.Kinem.C91_window",
    "Verif.Kinem.C91_sign_false"
   ],
   "note": "False of the code: if the window does not overlap the range of the kernel the weight is negative (no test for an empty range of E). Negation proved with a witness; the _partial theorem states what remains."
  },
  {
   "property": "C92",
   "status": "partial",
   "theorems": [
    "Verif.Kinem.C92_sqe_false",
    "Verif.Kinem.C92_sq_false",
    "Verif.Kinem.C92_eq_partial",
    "Verif.Kinem.C92_constQE"
   ],
   "note": "False of the code: S(Q,E), focusing and S(Q) kernels return the neutron unchanged with full weight when the range is empty. Negation proved with a witness; the _partial theorem states what remains."
  },
  {
   "property": "C93",
   "status": "partial",
   "theorems": [
    "Verif.Kinem.C93_weight_partial",
    "Verif.Kinem.C93_reject_false"
   ],
   "note": "False of the code: the weight is divided by the number of trials; the mean of 1/N is not the probability of success. Negation proved with a witness; the _partial theorem states what remains."
  },
  {
   "property": "C94",
   "status": "partial",
   "theorems": [
    "Verif.Kinem.C94_sqe_partial",
    "Verif.Kinem.C94_empty_false",
    "Verif.Kinem.C94_isotropic",
    "Verif.Kinem.C94_svq"
   ],
   "note": "False of the code: neutrons below the energy range are counted with their full weight. Negation proved with a witness; the _partial theorem states what remains."
  },
  {
   "property": "C95",
   "status": "partial",
   "theorems": [
    "Verif.Kinem.C95_start_partial",
    "Verif.Kinem.C95_late_false"
   ],
   "note": "False of the code: 2 Ef / tof is used instead of 2 Ef / (tof - t) (DGSSXResKernel.cc:108). Negation proved with a witness; the _partial theorem states what remains."
  },
  {
   "property": "C96",
   "status": "partial",
   "theorems": [
    "Verif.Kinem.C96_dispersion_partial",
    "Verif.Kinem.C96_bail_false"
   ],
   "note": "False of the code: the bail-out returns after the probability has been multiplied twice (E_vQ_Kernel.icc:203-225). Negation proved with a witness; the _partial theorem states what remains."
  },
  {
   "property": "C97",
   "status": "partial",
   "theorems": [
    "Verif.Kinem.C97_coefficient_partial",
    "Verif.Kinem.C97_energy_false"
   ],
   "note": "False of the code: `scattering_coefficient(ev)` is called after `S(ev)` changed the event (KernelBase.h:46-60). Negation proved with a witness; the _partial theorem states what remains."
  },
  {
   "property": "C98",
   "status": "partial",
   "theorems": [
    "Verif.Powder.C98_isometry",
    "Verif.Powder.C98_rotation_partial",
    "Verif.Powder.C98_axis_false"
   ],
   "note": "False of the code: a vector whose projection on the axis differs from its length by less than 1e-7 relative (angle below 4.5e-4 rad) is not rotated (utils.icc). Negation proved with a witness; the _partial theorem states what remains."
  },
  {
   "property": "C99",
   "status": "partial",
   "theorems": [
    "Verif.Powder.C99_width_partial",
    "Verif.Powder.C99_width_false"
   ],
   "note": "False of the code: the shifted q may be out of reach, asin gives NaN and the neutron is lost; the weight of the others is not corrected. Negation proved with a witness; the _partial theorem states what remains."
  },
  {
   "property": "C100",
   "status": "partial",
   "theorems": [
    "Verif.Powder.C100_acceptance",
    "Verif.Powder.C100_whole_partial",
    "Verif.Powder.C100_weight_false"
   ],
   "note": "False of the code: the weight is not multiplied by the covered part of the cone. Negation proved with a witness; the _partial theorem states what remains."
  },
  {
   "property": "C101",
   "status": "proved",
   "theorems": [
    "Verif.Homog.C101_ledger",
    "Verif.Homog.C101_outside"
   ],
   "note": ""
  },
  {
   "property": "C102",
   "status": "proved",
   "theorems": [
    "Verif.Homog.C102_packing"
   ],
   "note": ""
  },
  {
   "property": "C103",
   "status": "proved",
   "theorems": [
    "Verif.Table.C103_curve",
    "Verif.Table.C103_range"
   ],
   "note": ""
  },
  {
   "property": "C104",
   "status": "partial",
   "theorems": [
    "Verif.Table.C104_end1_false",
    "Verif.Table.C104_end3_false",
    "Verif.Table.C104_periodic_partial"
   ],
   "note": "False of the code: `r >= axis.n` fails (1D) or is moved to the first plane (3D), where periodic data is assumed. Negation proved with a witness; the _partial theorem states what remains."
  },
  {
   "property": "C105",
   "status": "proved",
   "theorems": [
    "Verif.Lattice.C105_range",
    "Verif.Lattice.C105_bounds",
    "Verif.Lattice.C105_node",
    "Verif.Lattice.C105_linear",
    "Verif.Lattice.C105_polarization",
    "Verif.Lattice.C105_accepted"
   ],
   "note": ""
  },
  {
   "property": "C106",
   "status": "partial",
   "theorems": [
    "Verif.Dos.C106_parabola_partial",
    "Verif.Dos.C106_short_false",
    "Verif.Dos.C106_flat_false"
   ],
   "note": "False of the code: `_compute_sod` reads 20 elements of shorter arrays and ends the program by `throw;` if the start is not close to a parabola (LinearlyInterpolatedDOS.icc:119-148). Negation proved with a witness; the _partial theorem states what remains."
  },
  {
   "property": "C107",
   "status": "partial",
   "theorems": [
    "Verif.Dos.C107_integral",
    "Verif.Dos.C107_ends_partial",
    "Verif.Dos.C107_debye_false"
   ],
   "note": "False of the code: normalised with the plain sum instead of the integral of the interpolated curve (LinearlyInterpolatedDOS.icc:89). Negation proved with a witness; the _partial theorem states what remains."
  },
  {
   "property": "C108",
   "status": "proved",
   "theorems": [
    "Verif.Dos.C108_balance",
    "Verif.Dos.C108_difference",
    "Verif.Dos.C108_cold",
    "Verif.Dos.C108_zero"
   ],
   "note": ""
  },
  {
   "property": "C109",
   "status": "partial",
   "theorems": [
    "Verif.Dos.C109_trapezoid_partial",
    "Verif.Dos.C109_exact_partial",
    "Verif.Dos.C109_unit_partial",
    "Verif.Dos.C109_hotter_partial",
    "Verif.Dos.C109_gap_false"
   ],
   "note": "False of the code: for a density of states that starts above energy 0 the first point counts fully and the value extrapolated to energy 0 is added, which may be negative (DWFromDOS.icc:69-74). Negation proved with a witness; the _partial theorem states what remains."
  },
  {
   "property": "C110",
   "status": "partial",
   "theorems": [
    "Verif.Phonon.C110_energy_partial",
    "Verif.Phonon.C110_layer_false",
    "Verif.Phonon.C110_total",
    "Verif.Phonon.C110_distribution_partial"
   ],
   "note": "False of the code: within 1e-4 of the z axis the axes are not orthogonal, so the speed changes (IncoherentElastic.cc:152-163). Negation proved with a witness; the _partial theorem states what remains."
  },
  {
   "property": "C111",
   "status": "partial",
   "theorems": [
    "Verif.Phonon.C111_range",
    "Verif.Phonon.C111_expected_partial"
   ],
   "note": "Partial: for observables that vanish for energy transfers below one percent of the largest phonon energy, where the code uses the limit of the factor for small energies (C112); the recoil energy is that of the code (C113)."
  },
  {
   "property": "C112",
   "status": "partial",
   "theorems": [
    "Verif.Phonon.C112_balance_partial",
    "Verif.Phonon.C112_small_false"
   ],
   "note": "False of the code: below one percent of the largest phonon energy gain and loss get the same thermal factor kT/w^2 (IncoherentInelastic.cc:262-267). Negation proved with a witness; the _partial theorem states what remains."
  },
  {
   "property": "C113",
   "status": "partial",
   "theorems": [
    "Verif.Phonon.C113_weight_partial",
    "Verif.Phonon.C113_mass_false"
   ],
   "note": "False of the code: `k2E(Q)/m_Mass` is the recoil energy for masses in units of the neutron mass, 1.00866 amu (IncoherentInelastic.cc:259, 270); 0.9 percent too small. Negation proved with a witness; the _partial theorem states what remains."
  },
  {
   "property": "C114",
   "status": "partial",
   "theorems": [
    "Verif.Phonon.C114_window",
    "Verif.Phonon.C114_same_partial",
    "Verif.Phonon.C114_expected_partial",
    "Verif.Phonon.C114_gain_false"
   ],
   "note": "False of the code: `Ei-Efmax<0` rejects every window that reaches above the initial energy, so energy gain and a window around the elastic line give no neutrons (IncoherentInelastic_EnergyFocusing.cc:94). Negation proved with a witness; the _partial theorem states what remains."
  },
  {
   "property": "C115",
   "status": "partial",
   "theorems": [
    "Verif.Phonon.C115_equal_partial",
    "Verif.Phonon.C115_average_false"
   ],
   "note": "False of the code: sum of the cross sections over the mean mass (IncoherentInelastic.cc:121-129; the comment in line 257 gives the right sum). Negation proved with a witness; the _partial theorem states what remains."
  },
  {
   "property": "C116",
   "status": "proved",
   "theorems": [
    "Verif.Mph.C116_spectra",
    "Verif.Mph.C116_sqe"
   ],
   "note": ""
  },
  {
   "property": "C117",
   "status": "partial",
   "theorems": [
    "Verif.Mph.C117_norm_partial",
    "Verif.Mph.C117_norm_false"
   ],
   "note": "False of the code: the value at energy zero is twice the one extrapolated linearly (multiphonon.py:208-212), and gamma0 counts the extrapolated value once. Negation proved with a witness; the _partial theorem states what remains."
  },
  {
   "property": "C118",
   "status": "proved",
   "theorems": [
    "Verif.Mph.C118_poisson",
    "Verif.Mph.C118_element",
    "Verif.Mph.C118_axis",
    "Verif.Mph.C118_total",
    "Verif.Mph.C118_none"
   ],
   "note": "If the first order is above the last one the result is None (C118_none)."
  },
  {
   "property": "C119",
   "status": "partial",
   "theorems": [
    "Verif.Mph.C119_nonneg_partial",
    "Verif.Mph.C119_negative_false",
    "Verif.Mph.C119_undefined_false"
   ],
   "note": "False of the code: linear extrapolation to energy zero gives a negative value for densities of states with a gap, in the spectrum and in gamma0, which can vanish. Negation proved with a witness; the _partial theorem states what remains."
  },
  {
   "property": "C120",
   "status": "partial",
   "theorems": [
    "Verif.Root.C120_accuracy_partial",
    "Verif.Root.C120_accuracy_false"
   ],
   "note": "False of the code: the loop ends as soon as two successive guesses are close, although the bracket may still be long (rootfinding.cc:218-221); the last guess but one is returned. Negation proved with a witness; the _partial theorem states what remains."
  },
  {
   "property": "C121",
   "status": "partial",
   "theorems": [
    "Verif.Root.C121_distinct_partial",
    "Verif.Root.C121_twice_false"
   ],
   "note": "False of the code: neighbouring sub-intervals both report a root at their common end (rootfinding.cc:177-187). Negation proved with a witness; the _partial theorem states what remains."
  },
  {
   "property": "C122",
   "status": "proved",
   "theorems": [
    "Verif.Xtal.C122_kinematics"
   ],
   "note": ""
  },
  {
   "property": "C123",
   "status": "partial",
   "theorems": [
    "Verif.Xtal.C123_sampling_partial"
   ],
   "note": "Partial: for directions in which every branch that is tried has a solution (C124, C125); branches that are not tried: C126; the scattered wave is that of the code (C127, C128)."
  },
  {
   "property": "C124",
   "status": "partial",
   "theorems": [
    "Verif.Xtal.C124_retry_partial",
    "Verif.Xtal.C124_retry_false"
   ],
   "note": "False of the code: the loop over directions draws again until a solution is found, and the weight does not account for that (CoherentInelastic_SingleXtal.cc:235-245). Negation proved with a witness; the _partial theorem states what remains."
  },
  {
   "property": "C125",
   "status": "partial",
   "theorems": [
    "Verif.Xtal.C125_unscattered_partial",
    "Verif.Xtal.C125_unscattered_false"
   ],
   "note": "False of the code: after 100 directions without a solution the neutron is returned unchanged with its full weight (CoherentInelastic_SingleXtal.cc:246-253). Negation proved with a witness; the _partial theorem states what remains."
  },
  {
   "property": "C126",
   "status": "partial",
   "theorems": [
    "Verif.Xtal.C126_branches_partial",
    "Verif.Xtal.C126_branches_false"
   ],
   "note": "False of the code: branches that start at 1.5 times the energy of the neutron or higher are left out though they can be destroyed, and if none remains the program takes a remainder modulo zero (CoherentInelastic_SingleXtal.cc:222-235). Negation proved with a witness; the _partial theorem states what remains."
  },
  {
   "property": "C127",
   "status": "proved",
   "theorems": [
    "Verif.Xtal.C127_origin",
    "Verif.Xtal.C127_phase",
    "Verif.Xtal.C127_one"
   ],
   "note": ""
  },
  {
   "property": "C128",
   "status": "partial",
   "theorems": [
    "Verif.Xtal.C128_amplitude_partial",
    "Verif.Xtal.C128_amplitude_false"
   ],
   "note": "False of the code: `Q.e` is divided by the length of the polarization vector of each atom (scattering_length.icc:42-43). Negation proved with a witness; the _partial theorem states what remains."
  },
  {
   "property": "C129",
   "status": "partial",
   "theorems": [
    "Verif.Xtal.C129_sign_partial",
    "Verif.Xtal.C129_sign_false"
   ],
   "note": "False of the code: `sqrt(xs*100/4/pi)` is always positive (BoostPythonBinding.py:98-105). Negation proved with a witness; the _partial theorem states what remains."
  },
  {
   "property": "C130",
   "status": "partial",
   "theorems": [
    "Verif.Xtal.C130_kinematics_partial",
    "Verif.Xtal.C130_stale_false"
   ],
   "note": "False of the code: `continue` in a do-while loop goes to the test, with the energy of the round before or not yet set (CoherentInelastic_PolyXtal.cc:170-186). Negation proved with a witness; the _partial theorem states what remains."
  },
  {
   "property": "C131",
   "status": "partial",
   "theorems": [
    "Verif.Xtal.C131_choices_partial",
    "Verif.Xtal.C131_choices_false"
   ],
   "note": "False of the code: `if (E_i > omega)` uses the signed energy transfer E_i - E_f, so it is always true (CoherentInelastic_PolyXtal.cc:324-348). Negation proved with a witness; the _partial theorem states what remains."
  },
  {
   "property": "C132",
   "status": "partial",
   "theorems": [
    "Verif.Xtal.C132_volume_partial",
    "Verif.Xtal.C132_volume_false"
   ],
   "note": "False of the code: the volume of momentum transfers that can be accepted is replaced by a fitted formula that contains the largest phonon energy (CoherentInelastic_PolyXtal.cc:213-225). Negation proved with a witness; the _partial theorem states what remains."
  },
  {
   "property": "C133",
   "status": "proved",
   "theorems": [
    "Verif.Bragg.C133_elastic",
    "Verif.Bragg.C133_none"
   ],
   "note": ""
  },
  {
   "property": "C134",
   "status": "proved",
   "theorems": [
    "Verif.Bragg.C134_normal"
   ],
   "note": ""
  },
  {
   "property": "C135",
   "status": "proved",
   "theorems": [
    "Verif.Bragg.C135_reflectivity"
   ],
   "note": ""
  },
  {
   "property": "C136",
   "status": "partial",
   "theorems": [
    "Verif.Bragg.C136_sound",
    "Verif.Bragg.C136_complete_partial",
    "Verif.Bragg.C136_mosaic_false",
    "Verif.Bragg.C136_spread_false"
   ],
   "note": "False of the code: the loop stops at `tau > 2k/(1-5 delta)`, which knows only the spread of lattice spacings, though the cutoff of a reflection is made with the larger of it and the mosaic spread; for spreads above 1/5 the limit is negative (SingleCrystalDiffractionKernel.cc:166-190). Negation proved with a witness; the _partial theorem states what remains."
  },
  {
   "property": "C137",
   "status": "proved",
   "theorems": [
    "Verif.Bragg.C137_history"
   ],
   "note": ""
  },
  {
   "property": "C138",
   "status": "proved",
   "theorems": [
    "Verif.Sampling.C138_normal",
    "Verif.Sampling.C138_limit"
   ],
   "note": ""
  },
  {
   "property": "C139",
   "status": "proved",
   "theorems": [
    "Verif.Sampling.C139_lorentz"
   ],
   "note": ""
  },
  {
   "property": "C140",
   "status": "partial",
   "theorems": [
    "Verif.Sampling.C140_cone",
    "Verif.Sampling.C140_uniform_partial",
    "Verif.Sampling.C140_narrow_false"
   ],
   "note": "False of the code: `rotate` leaves a vector as it is that is nearly along the axis (1 - cos < 1e-7), so the azimuth is not sampled: for a cone of less than 4.5e-4 rad all directions lie in one half plane (geometry.cc:58-59, utils.icc:25-28). Negation proved with a witness; the _partial theorem states what remains."
  },
  {
   "property": "C141",
   "status": "proved",
   "theorems": [
    "Verif.Broad.C141_laws",
    "Verif.Broad.C141_transfer"
   ],
   "note": ""
  },
  {
   "property": "C142",
   "status": "partial",
   "theorems": [
    "Verif.Broad.C142_expectation",
    "Verif.Broad.C142_shape_partial",
    "Verif.Broad.C142_weight_false",
    "Verif.Broad.C142_flat_false"
   ],
   "note": "False of the code: failed rounds are repeated and the weight does not account for it (Broadened_E_Q_Kernel.icc:154-183), so the intensity is divided by the acceptance. Negation proved with a witness; the _partial theorem states what remains."
  },
  {
   "property": "C143",
   "status": "partial",
   "theorems": [
    "Verif.Broad.C143_hit_partial",
    "Verif.Broad.C143_slow_false",
    "Verif.Broad.C143_last_false"
   ],
   "note": "False of the code: neutrons with less energy than `min(E-3W)` are returned with their full weight (Broadened_E_Q_Kernel.icc:142-146), and so are those for which the first 99 rounds fail, even if the last one succeeds (lines 180-190). Negation proved with a witness; the _partial theorem states what remains."
  },
  {
   "property": "C144",
   "status": "partial",
   "theorems": [
    "Verif.Broad.C144_elastic",
    "Verif.Broad.C144_forward_false"
   ],
   "note": "False of the code: in exactly forward direction, which `rand()/RAND_MAX` can give, the form factor is 0/0 (SpheresKernel.cc:91). Negation proved with a witness; the _partial theorem states what remains."
  },
  {
   "property": "C145",
   "status": "partial",
   "theorems": [
    "Verif.Broad.C145_factor_partial",
    "Verif.Broad.C145_shape_partial",
    "Verif.Broad.C145_weight_false"
   ],
   "note": "False of the code: the solid angle is divided by 4 pi although the factor in line 92 is already the cross section per steradian (SpheresKernel.cc:86, 92). Negation proved with a witness; the _partial theorem states what remains."
  },
  {
   "property": "C146",
   "status": "partial",
   "theorems": [
    "Verif.Broad.C146_total",
    "Verif.Broad.C146_limit_partial",
    "Verif.Broad.C146_coefficient_false"
   ],
   "note": "False of the code: 3/2 phi drho^2 lambda^2 R is the limit for large spheres (SpheresKernel.cc:48-59). Negation proved with a witness; the _partial theorem states what remains."
  },
  {
   "property": "C147",
   "status": "partial",
   "theorems": [
    "Verif.Registry.C147_obtained_partial",
    "Verif.Registry.C147_shadow_false",
    "Verif.Registry.C147_stable"
   ],
   "note": "False of the code: the loop over repositories does not look at the category, so a module of the same name in a later repository hides the component, and the request raises RuntimeError (RegistryBase.py:108-120). Negation proved with a witness; the _partial theorem states what remains."
  },
  {
   "property": "C148",
   "status": "partial",
   "theorems": [
    "Verif.IdfPhonon.C148_histogram_partial",
    "Verif.IdfPhonon.C148_order_false"
   ],
   "note": "False of the code: the axes are taken by name but the array as it is stored, so a histogram with axes (energy, Q) is read with its data exchanged; errors are not stored (idf/__init__.py:43-61). Negation proved with a witness; the _partial theorem states what remains."
  },
  {
   "property": "C149",
   "status": "partial",
   "theorems": [
    "Verif.Peaks.C149_single",
    "Verif.Peaks.C149_powder_partial",
    "Verif.Peaks.C149_powder_false"
   ],
   "note": "False of the code: only indexes that are not negative are tried for powders (calcpeaks.py:14). Negation proved with a witness; the _partial theorem states what remains."
  },
  {
   "property": "C150",
   "status": "partial",
   "theorems": [
    "Verif.Peaks.C150_equivalent_partial",
    "Verif.Peaks.C150_equivalent_false",
    "Verif.Peaks.C150_missing_false"
   ],
   "note": "False of the code: indexes are multiplied by the matrices that act on positions instead of by the transposed ones (calcpeaks.py:95). Negation proved with a witness; the _partial theorem states what remains."
  },
  {
   "property": "C151",
   "status": "partial",
   "theorems": [
    "Verif.Peaks.C151_spacing_partial",
    "Verif.Peaks.C151_spacing_false"
   ],
   "note": "False of the code: the loops are left at the first (h 0 0) or (0 k 0) with a small spacing, though (h k 0) can have a larger one (calcpeaks.py:23-29). Negation proved with a witness; the _partial theorem states what remains."
  },
  {
   "property": "C152",
   "status": "partial",
   "theorems": [
    "Verif.Exchange.C152_round_trip_partial",
    "Verif.Exchange.C152_round_trip_spin_partial",
    "Verif.Exchange.C152_round_trip_false"
   ],
   "note": "False of the code: a neutron at rest gets the direction 0/0 (to_mcpl.cc:69-71); a file without neutrons makes `np.concatenate` fail (mcpl.py:41). Negation proved with a witness; the _partial theorem states what remains."
  },
  {
   "property": "C153",
   "status": "partial",
   "theorems": [
    "Verif.Exchange.C153_import",
    "Verif.Exchange.C153_export_partial",
    "Verif.Exchange.C153_export_false"
   ],
   "note": "False of the code: the export writes the weights unchanged, while the import multiplies by the number of neutrons by default (neutronstorage.py:105, mcpl.py:44-46). Negation proved with a witness; the _partial theorem states what remains."
  },
  {
   "property": "C154",
   "status": "partial",
   "theorems": [
    "Verif.Exchange.C154_polarisation_partial",
    "Verif.Exchange.C154_polarisation_false"
   ],
   "note": "False of the code: a polarisation of length 0 becomes spin numbers 0, 0 (mcpl.py:34-36), which are exported as polarisation along y. Negation proved with a witness; the _partial theorem states what remains."
  },
  {
   "property": "C155",
   "status": "partial",
   "theorems": [
    "Verif.Exchange.C155_python_partial",
    "Verif.Exchange.C155_cpp_partial",
    "Verif.Exchange.C155_cpp_false"
   ],
   "note": "False of the code: the C++ converters copy positions, velocities and times without change of units and axes (mcvine2vitess.h:30-36); the directory is not built (legacycomponents/CMakeLists.txt:3). Negation proved with a witness; the _partial theorem states what remains."
  },
  {
   "property": "C156",
   "status": "partial",
   "theorems": [
    "Verif.Exchange.C156_extract_partial",
    "Verif.Exchange.C156_extract_refuses",
    "Verif.Exchange.C156_print_partial",
    "Verif.Exchange.C156_default_false"
   ],
   "note": "False of the code: the default `None` of `--end` is compared or subtracted (neutronstorage.py:48,89): TypeError in every call without it. Negation proved with a witness; the _partial theorem states what remains."
  },
  {
   "property": "C157",
   "status": "partial",
   "theorems": [
    "Verif.Sources.C157_collimator_partial",
    "Verif.Sources.C157_order",
    "Verif.Sources.C157_collimator_false"
   ],
   "note": "False of the code: `arctan2` gives angles up to half a turn only, so parts of a collimator beyond are closed (RadialCollimator.py:28-36). Negation proved with a witness; the _partial theorem states what remains."
  },
  {
   "property": "C158",
   "status": "proved",
   "theorems": [
    "Verif.Sources.C158_cone",
    "Verif.Sources.C158_cone_exists"
   ],
   "note": ""
  },
  {
   "property": "C159",
   "status": "partial",
   "theorems": [
    "Verif.Sources.C159_mono_partial",
    "Verif.Sources.C159_mono_false"
   ],
   "note": "False of the code: negative samples of the normal distribution give velocities that are not numbers (MonochromaticSource.py:71-77). Negation proved with a witness; the _partial theorem states what remains."
  },
  {
   "property": "C160",
   "status": "partial",
   "theorems": [
    "Verif.McStas.C160_dt",
    "Verif.McStas.C160_free_partial",
    "Verif.McStas.C160_back_false",
    "Verif.McStas.C160_gravity_partial",
    "Verif.McStas.C160_fall_false",
    "Verif.McStas.C160_again_false"
   ],
   "note": "False of the code: without gravity a neutron beyond the plane flies back in time (propagators.h:75-85 has no test of the sign); with gravity `plane_intersect_Gfast` takes the root nearest to the straight flight (geometry.cc:574-615), so a neutron that falls back is absorbed, and one that is on the plane already is absorbed always. Negation proved with a witness; the _partial theorem states what remains."
  },
  {
   "property": "C161",
   "status": "partial",
   "theorems": [
    "Verif.McStas.C161_rotate",
    "Verif.McStas.C161_axis_false",
    "Verif.McStas.C161_matrix",
    "Verif.McStas.C161_coordinates"
   ],
   "note": "False of the code: an axis of length 0 gives cos(phi) times the vector without notice (geometry.cc:269-304). Negation proved with a witness; the _partial theorem states what remains."
  },
  {
   "property": "C162",
   "status": "proved",
   "theorems": [
    "Verif.McStas.C162_cone",
    "Verif.McStas.C162_uniform",
    "Verif.McStas.C162_sphere"
   ],
   "note": ""
  },
  {
   "property": "C163",
   "status": "partial",
   "theorems": [
    "Verif.McStas.C163_window_partial",
    "Verif.McStas.C163_uniform_false",
    "Verif.McStas.C163_window_false"
   ],
   "note": "False of the code: angles are drawn uniformly, so the directions are not uniform in the window though the solid angle returned is that of uniform directions; without window size the call is made with arguments that are not set. Negation proved with a witness; the _partial theorem states what remains."
  },
  {
   "property": "C164",
   "status": "partial",
   "theorems": [
    "Verif.McStas.C164_rectangle_partial",
    "Verif.McStas.C164_vertical_false"
   ],
   "note": "False of the code: for a target straight above or below the horizontal vector of the rectangle is 0/0. Negation proved with a witness; the _partial theorem states what remains."
  },
  {
   "property": "C165",
   "status": "partial",
   "theorems": [
    "Verif.McStas.C165_sphere",
    "Verif.McStas.C165_cylinder_partial",
    "Verif.McStas.C165_axis_false",
    "Verif.McStas.C165_box_partial",
    "Verif.McStas.C165_edge_false"
   ],
   "note": "False of the code: a flight parallel to the axis of the cylinder divides by 0; a flight through edges of a box hits two faces at once, more than two faces or none are counted and no intersection is found. Negation proved with a witness; the _partial theorem states what remains."
  },
  {
   "property": "C166",
   "status": "proved",
   "theorems": [
    "Verif.McStas.C166_normal"
   ],
   "note": ""
  },
  {
   "property": "C167",
   "status": "partial",
   "theorems": [
    "Verif.McStas.C167_normal",
    "Verif.McStas.C167_seed_false"
   ],
   "note": "False of the code: the second number of a pair is kept in static variables and used after a new seed. Negation proved with a witness; the _partial theorem states what remains."
  },
  {
   "property": "C168",
   "status": "partial",
   "theorems": [
    "Verif.McMon.C168_window",
    "Verif.McMon.C168_monitor_partial",
    "Verif.McMon.C168_wavelength_partial",
    "Verif.McMon.C168_energy_partial",
    "Verif.McMon.C168_flight_partial",
    "Verif.McMon.C168_position_partial",
    "Verif.McMon.C168_divergence_partial",
    "Verif.McMon.C168_parallel_false",
    "Verif.McMon.C168_away_false"
   ],
   "note": "False of the code: `ABSORB` inside of `PROP_Z0` only leaves the propagator (tracing_macros.h:33), so a neutron that flies parallel to the monitor is counted with weight -1; a neutron that flies away from the monitor flies back in time and is counted. Negation proved with a witness; the _partial theorem states what remains."
  },
  {
   "property": "C169",
   "status": "partial",
   "theorems": [
    "Verif.McMon.C169_position_partial",
    "Verif.McMon.C169_energy_partial",
    "Verif.McMon.C169_divpos_partial",
    "Verif.McMon.C169_divergence_partial",
    "Verif.McMon.C169_timelambda_partial",
    "Verif.McMon.C169_divlambda_partial",
    "Verif.McMon.C169_parallel_false"
   ],
   "note": "False of the code: as for C168, the pixel gets the weight -1. Negation proved with a witness; the _partial theorem states what remains."
  },
  {
   "property": "C170",
   "status": "partial",
   "theorems": [
    "Verif.McMon.C170_tof_partial",
    "Verif.McMon.C170_width_partial",
    "Verif.McMon.C170_axis_false",
    "Verif.McMon.C170_range_false",
    "Verif.McMon.C170_log_partial",
    "Verif.McMon.C170_log_false"
   ],
   "note": "False of the code: times out of range are counted in the first and the last channel; with `dt` instead of `tmax` the channels start at 0 while the axis of the output starts at `tmin` (TOF_monitor.comp); the logarithm of a time that is not positive is converted to an index. Negation proved with a witness; the _partial theorem states what remains."
  },
  {
   "property": "C171",
   "status": "partial",
   "theorems": [
    "Verif.McMon.C171_time_partial",
    "Verif.McMon.C171_seam_false",
    "Verif.McMon.C171_position_partial",
    "Verif.McMon.C171_shift_false",
    "Verif.McMon.C171_half_false"
   ],
   "note": "False of the code: `PSDcyl_monitor` has no offset in its indexes: half of the circle is counted outside of the array and the rest is moved by half of the axes (PSDcyl_monitor.comp:107-109); `TOF_cylPSD_monitor` counts the angle of 180 degrees in the next time channel. Negation proved with a witness; the _partial theorem states what remains."
  },
  {
   "property": "C172",
   "status": "partial",
   "theorems": [
    "Verif.McMon.C172_partial",
    "Verif.McMon.C172_row_false"
   ],
   "note": "False of the code: the row has an offset of one half more than it should (PSD_monitor_4PI.comp:134), so rows are moved by half their height and the uppermost row is wider. Negation proved with a witness; the _partial theorem states what remains."
  },
  {
   "property": "C173",
   "status": "partial",
   "theorems": [
    "Verif.McMon.C173_partial",
    "Verif.McMon.C173_below_false"
   ],
   "note": "False of the code: the angle out of plane has no sign (IQE_monitor.comp:84-89), so a range above the plane also takes the neutrons below. Negation proved with a witness; the _partial theorem states what remains."
  },
  {
   "property": "C174",
   "status": "partial",
   "theorems": [
    "Verif.McOpt.C174_partial",
    "Verif.McOpt.C174_new",
    "Verif.McOpt.C174_away_false"
   ],
   "note": "False of the code: a neutron that flies away from the slit is moved back in time and passes (Slit.comp:60). Negation proved with a witness; the _partial theorem states what remains."
  },
  {
   "property": "C175",
   "status": "partial",
   "theorems": [
    "Verif.McOpt.C175_partial",
    "Verif.McOpt.C175_parallel_false"
   ],
   "note": "False of the code: neutrons parallel to the stop and neutrons that have left it behind are absorbed (Beamstop.comp:71-78). Negation proved with a witness; the _partial theorem states what remains."
  },
  {
   "property": "C176",
   "status": "partial",
   "theorems": [
    "Verif.McOpt.C176_partial",
    "Verif.McOpt.C176_soller",
    "Verif.McOpt.C176_twice_false"
   ],
   "note": "False of the code: with blades in both directions the transmission is multiplied twice (Collimator_linear.comp:81, 89). Negation proved with a witness; the _partial theorem states what remains."
  },
  {
   "property": "C177",
   "status": "proved",
   "theorems": [
    "Verif.McOpt.C177_helical",
    "Verif.McOpt.C177_blades"
   ],
   "note": ""
  },
  {
   "property": "C178",
   "status": "partial",
   "theorems": [
    "Verif.McOpt.C178_width",
    "Verif.McOpt.C178_partial",
    "Verif.McOpt.C178_phase_partial",
    "Verif.McOpt.C178_first_partial",
    "Verif.McOpt.C178_height_false",
    "Verif.McOpt.C178_delay_false",
    "Verif.McOpt.C178_first_false"
   ],
   "note": "False of the code: the height is computed before the neutron is moved to the chopper (DiskChopper.comp:156-157); a delay changes its sign for negative omega (line 129); the first chopper subtracts the delay instead of adding it (line 171). Negation proved with a witness; the _partial theorem states what remains."
  },
  {
   "property": "C179",
   "status": "partial",
   "theorems": [
    "Verif.McOpt.C179_partial",
    "Verif.McOpt.C179_slits_false",
    "Verif.McOpt.C179_diagonal_false"
   ],
   "note": "False of the code: the number of slits is not used, only one opening in all time is (HYSPEC_Chopper_v.comp:76); on the diagonals the angle is not set (lines 67-72). Negation proved with a witness; the _partial theorem states what remains."
  },
  {
   "property": "C180",
   "status": "partial",
   "theorems": [
    "Verif.McGuide.C180_partial",
    "Verif.McGuide.C180_speed",
    "Verif.McGuide.C180_ends",
    "Verif.McGuide.C180_ends_false"
   ],
   "note": "False of the code: a neutron that moves across the guide is not absorbed by `PROP_Z0` (whose `ABSORB` only leaves the propagator) and is reflected for ever (Guide.comp:120, 127-215). Negation proved with a witness; the _partial theorem states what remains."
  },
  {
   "property": "C181",
   "status": "partial",
   "theorems": [
    "Verif.McGuide.C181_partial",
    "Verif.McGuide.C181_false"
   ],
   "note": "False of the code: above Qc + 1/alpha the factor 1 - alpha (q - Qc) is negative and is not cut off as long as q < m Qc + 10 W, e.g. for m = 8 and the defaults (Guide.comp:204-206). Negation proved with a witness; the _partial theorem states what remains."
  },
  {
   "property": "C182",
   "status": "proved",
   "theorems": [
    "Verif.McGuide.C182_misses",
    "Verif.McGuide.C182_meets",
    "Verif.McGuide.C182_transmit"
   ],
   "note": ""
  },
  {
   "property": "C183",
   "status": "partial",
   "theorems": [
    "Verif.McGuide.C183_new",
    "Verif.McGuide.C183_misses",
    "Verif.McGuide.C183_partial",
    "Verif.McGuide.C183_specular",
    "Verif.McGuide.C183_ends_false",
    "Verif.McGuide.C183_normal_false"
   ],
   "note": "False of the code: the loop that reduces the width does not end if the neutron is more than sqrt(37.5) mosaic widths away from the angle of Bragg, as the width does not matter then (Monochromator_flat.comp:196-207); for neutrons along the normal the probability is 0/0 and they are never reflected (lines 161-165). Negation proved with a witness; the _partial theorem states what remains."
  },
  {
   "property": "C184",
   "status": "partial",
   "theorems": [
    "Verif.McTable.C184_partial",
    "Verif.McTable.C184_index",
    "Verif.McTable.C184_nearest_partial",
    "Verif.McTable.C184_step_false",
    "Verif.McTable.C184_last_false"
   ],
   "note": "False of the code: for tables with constant steps the index is computed with the number of rows instead of the number of intervals, and the values are taken from one row before the places: the value in the node 1 of (0,0), (1,10), (2,20) is 0 (read_table-lib.cc:673-680); for other tables the search ends before the last interval and the places of the interval before are used: (0,0), (1,10), (3,30) gives 50 at 2 (lines 664-671). Negation proved with a witness; the _partial theorem states what remains."
  },
  {
   "property": "C185",
   "status": "partial",
   "theorems": [
    "Verif.McTable.C185_partial",
    "Verif.McTable.C185_last_false",
    "Verif.McTable.C185_decreasing_false"
   ],
   "note": "False of the code: the last row is never reached, as only ceil(range / step) rows are made (read_table-lib.cc:563, 566-569); tables in descending order count as not monotonic the second time, and then as tables with constant steps (lines 870-887), and are returned unchanged. Negation proved with a witness; the _partial theorem states what remains."
  },
  {
   "property": "C186",
   "status": "partial",
   "theorems": [
    "Verif.McConst.C186_partial",
    "Verif.McConst.C186_false"
   ],
   "note": "False of the code: `K2V` is larger than hbar / m by 1.5e-4: energies of neutrons made for a wave vector or wave length are too large by 3e-4 (phys_constants.h:25). Negation proved with a witness; the _partial theorem states what remains."
  },
  {
   "property": "C187",
   "status": "partial",
   "theorems": [
    "Verif.McSource.C187_partial",
    "Verif.McSource.C187_mean_partial",
    "Verif.McSource.C187_disk",
    "Verif.McSource.C187_rectangle",
    "Verif.McSource.C187_weight_false",
    "Verif.McSource.C187_gauss_partial",
    "Verif.McSource.C187_gauss_false",
    "Verif.McSource.C187_spectrum_false"
   ],
   "note": "False of the code: the solid angle is that seen from the center of the source (Source_simple.comp:107-114); gaussian wave lengths lack their mean `Lambda0` (line 127); as `E0` has a default, the interval of wave lengths is not tested and neutrons may fly backwards (lines 80-82). Negation proved with a witness; the _partial theorem states what remains."
  },
  {
   "property": "C188",
   "status": "partial",
   "theorems": [
    "Verif.McSource.C188_partial",
    "Verif.McSource.C188_fwhm",
    "Verif.McSource.C188_exit_false",
    "Verif.McSource.C188_angle_false"
   ],
   "note": "False of the code: parameters with |dE| >= E0 and dLambda > Lambda0 = 0 are accepted and end the program at the first neutron (Source_div.comp:76-78, 104-107); angles above 90 degrees are folded to the forward direction (lines 118-124). Negation proved with a witness; the _partial theorem states what remains."
  },
  {
   "property": "C189",
   "status": "partial",
   "theorems": [
    "Verif.McSource.C189_partial",
    "Verif.McSource.C189_time"
   ],
   "note": "The weight is that of the solid angle seen from the center of the source; negative decay times are accepted (hypothesis)."
  },
  {
   "property": "C190",
   "status": "partial",
   "theorems": [
    "Verif.McSource.C190_partial",
    "Verif.McSource.C190_spectrum",
    "Verif.McSource.C190_all",
    "Verif.McSource.C190_order_false"
   ],
   "note": "False of the code: an interval with l_low > l_high is accepted and gives negative weights (Source_Maxwell_3.comp:76-81); the solid angle is that seen from the center (lines 99-100, 119). Negation proved with a witness; the _partial theorem states what remains."
  },
  {
   "property": "C191",
   "status": "proved",
   "theorems": [
    "Verif.MtRandom.C191_stream",
    "Verif.MtRandom.C191_default",
    "Verif.MtRandom.C191_unique"
   ],
   "note": ""
  },
  {
   "property": "C192",
   "status": "proved",
   "theorems": [
    "Verif.MtRandom.C192_range",
    "Verif.MtRandom.C192_numbers",
    "Verif.MtRandom.C192_bijective"
   ],
   "note": ""
  },
  {
   "property": "C193",
   "status": "proved",
   "theorems": [
    "Verif.MtRandom.C193_period",
    "Verif.MtRandom.C193_state"
   ],
   "note": ""
  },
  {
   "property": "C194",
   "status": "partial",
   "theorems": [
    "Verif.MtRandom.C194_seeds",
    "Verif.MtRandom.C194_nodes_partial",
    "Verif.MtRandom.C194_nodes_false",
    "Verif.MtRandom.C194_runs_few"
   ],
   "note": "False of the code: the seed of a node is the time in microseconds modulo 65536 plus its rank (rng_seed.py:19-28): a node that starts one microsecond after the node with the next rank has the same random numbers; 65537 runs cannot have different ones. Negation proved with a witness; the _partial theorem states what remains."
  },
  {
   "property": "C195",
   "status": "partial",
   "theorems": [
    "Verif.MtRandom.C195_partial",
    "Verif.MtRandom.C195_false"
   ],
   "note": "False of the code: the seed 2^31 - 1 gives zeros in the whole state, which the replacement of the seed 0 is to avoid (random_numbers.cc:110-122). Negation proved with a witness; the _partial theorem states what remains."
  },
  {
   "property": "C196",
   "status": "partial",
   "theorems": [
    "Verif.McSample.C196_scatter_partial",
    "Verif.McSample.C196_transmit_partial",
    "Verif.McSample.C196_behind_false"
   ],
   "note": "False of the code: a neutron that has left the sample behind and will never meet it is absorbed (V_sample.comp:202). Negation proved with a witness; the _partial theorem states what remains."
  },
  {
   "property": "C197",
   "status": "partial",
   "theorems": [
    "Verif.McSample.C197_balance_partial",
    "Verif.McSample.C197_all_partial",
    "Verif.McSample.C197_above_false"
   ],
   "note": "False of the code: `frac` above 1 is accepted and divides the weight of all neutrons (V_sample.comp:217, 287). Negation proved with a witness; the _partial theorem states what remains."
  },
  {
   "property": "C198",
   "status": "partial",
   "theorems": [
    "Verif.McSample.C198_target_partial",
    "Verif.McSample.C198_index_false"
   ],
   "note": "False of the code: the code for `target_index` is commented out (V_sample.comp:141-150): with any index the neutrons are scattered around the z axis. Negation proved with a witness; the _partial theorem states what remains."
  },
  {
   "property": "C199",
   "status": "proved",
   "theorems": [
    "Verif.McSample.C199_lorentz"
   ],
   "note": ""
  },
  {
   "property": "C200",
   "status": "partial",
   "theorems": [
    "Verif.McSample.C200_amplitude",
    "Verif.McSample.C200_forward_false"
   ],
   "note": "False of the code: for a neutron that is not deflected the formula is 0/0 (Sans_spheres.comp:113). Negation proved with a witness; the _partial theorem states what remains."
  },
  {
   "property": "C201",
   "status": "partial",
   "theorems": [
    "Verif.McSample.C201_weight_partial",
    "Verif.McSample.C201_absorption_false"
   ],
   "note": "False of the code: the cross section, documented in 1/m, is multiplied by 100 (Sans_spheres.comp:74): absorption is 100 times too strong. Negation proved with a witness; the _partial theorem states what remains."
  },
  {
   "property": "C202",
   "status": "proved",
   "theorems": [
    "Verif.McFermi.C202_circle",
    "Verif.McFermi.C202_line"
   ],
   "note": ""
  },
  {
   "property": "C203",
   "status": "partial",
   "theorems": [
    "Verif.McFermi.C203_angle",
    "Verif.McFermi.C203_wrap_false"
   ],
   "note": "False of the code: the angles are in [0, 2 pi] without unwrapping (Vertical_T0.comp:61-67, 142): a path across the angle 0 is replaced by the other part of the circle. Negation proved with a witness; the _partial theorem states what remains."
  },
  {
   "property": "C204",
   "status": "partial",
   "theorems": [
    "Verif.McFermi.C204_ends_partial",
    "Verif.McFermi.C204_exit_false"
   ],
   "note": "False of the code: the angle of the exit plane is computed with splen/2 instead of splen (Vertical_T0.comp:149, Fermi_chop2.comp:189): the last quarter of the slot is not tested. Negation proved with a witness; the _partial theorem states what remains."
  },
  {
   "property": "C205",
   "status": "partial",
   "theorems": [
    "Verif.McFermi.C205_points_partial",
    "Verif.McFermi.C205_beyond_false"
   ],
   "note": "False of the code: the inner loop runs one step too far in each turn (Vertical_T0.comp:164-167): 6 points behind the end of the path are tested. Negation proved with a witness; the _partial theorem states what remains."
  },
  {
   "property": "C206",
   "status": "partial",
   "theorems": [
    "Verif.McFermi.C206_ends_partial",
    "Verif.McFermi.C206_parked_false"
   ],
   "note": "False of the code: for a path that is straight in the turning frame, e.g. a chopper at rest, no angle is a number and the loop never ends (Vertical_T0.comp:157-183). Negation proved with a witness; the _partial theorem states what remains."
  },
  {
   "property": "C207",
   "status": "partial",
   "theorems": [
    "Verif.McFermi.C207_straight_partial",
    "Verif.McFermi.C207_taper_false"
   ],
   "note": "False of the code: the slope of the wall is (w2 - w1)/(nrad/2) with the radius of the path instead of the length of the slot (Vertical_T0.comp:91): whether a point is in the slot depends on the path. Negation proved with a witness; the _partial theorem states what remains."
  },
  {
   "property": "C208",
   "status": "partial",
   "theorems": [
    "Verif.McFermi.C208_channel_partial",
    "Verif.McFermi.C208_blade_false"
   ],
   "note": "False of the code: the thickness of the blades is not tested (Fermi_chop2.comp:109-121): the upper limit of a channel is compared with itself rounded up, which never fails, so that blades are transparent. Negation proved with a witness; the _partial theorem states what remains."
  },
  {
   "property": "C209",
   "status": "partial",
   "theorems": [
    "Verif.McFermi.C209_channel_partial",
    "Verif.McFermi.C209_outside_false"
   ],
   "note": "False of the code: channels with number 0 or less are accepted (Fermi_chop2.comp:116-121, 211): a neutron beside the package passes. Negation proved with a witness; the _partial theorem states what remains."
  },
  {
   "property": "C210",
   "status": "partial",
   "theorems": [
    "Verif.McFermi.C210_bend_partial",
    "Verif.McFermi.C210_straight_false"
   ],
   "note": "False of the code: for radius 0 the offset is not a number (Fermi_chop2.comp:141), the intersection fails and every neutron passes unchanged, although `blades` has a case for straight blades. Negation proved with a witness; the _partial theorem states what remains."
  },
  {
   "property": "C211",
   "status": "partial",
   "theorems": [
    "Verif.McFermi.C211_limits_partial",
    "Verif.McFermi.C211_limits_false"
   ],
   "note": "False of the code: the cylinder has the height ymax - ymin but is centred at y = 0 (Vertical_T0.comp:118, Fermi_chop2.comp:157). Negation proved with a witness; the _partial theorem states what remains."
  },
  {
   "property": "C212",
   "status": "partial",
   "theorems": [
    "Verif.SnsSource.C212_linear_partial",
    "Verif.SnsSource.C212_outside_false"
   ],
   "note": "False of the code: above the table the last line is continued, below it a value before the array is read (sns_source-lib.cc:135-152): the loop never leaves the index behind the table, so that the message is never printed. Negation proved with a witness; the _partial theorem states what remains."
  },
  {
   "property": "C213",
   "status": "partial",
   "theorems": [
    "Verif.SnsSource.C213_points_partial",
    "Verif.SnsSource.C213_quadratic_partial",
    "Verif.SnsSource.C213_first_false",
    "Verif.SnsSource.C213_monotone_false"
   ],
   "note": "False of the code: below the second point, and at the first one, a value before the array is read; the interpolation of an increasing distribution exceeds 1 and falls (sns_source-lib.cc:168-186). Negation proved with a witness; the _partial theorem states what remains."
  },
  {
   "property": "C214",
   "status": "partial",
   "theorems": [
    "Verif.SnsSource.C214_trapezoids_partial",
    "Verif.SnsSource.C214_line_partial",
    "Verif.SnsSource.C214_integral_false"
   ],
   "note": "False of the code: the loop ends as soon as two successive approximations agree (sns_source-lib.cc:212-228): for a spectrum with two peaks the result is a third of the integral. Negation proved with a witness; the _partial theorem states what remains."
  },
  {
   "property": "C215",
   "status": "proved",
   "theorems": [
    "Verif.SnsSource.C215_distribution"
   ],
   "note": ""
  },
  {
   "property": "C216",
   "status": "partial",
   "theorems": [
    "Verif.SnsSource.C216_distribution_partial",
    "Verif.SnsSource.C216_limit_false",
    "Verif.SnsSource.C216_first_false"
   ],
   "note": "False of the code: the part of the area between the lower limit and the first point is overwritten (sns_source-lib.cc:296-327); with a first time above the lower limit a value before the array is read. Negation proved with a witness; the _partial theorem states what remains."
  },
  {
   "property": "C217",
   "status": "partial",
   "theorems": [
    "Verif.SnsSource.C217_root_partial",
    "Verif.SnsSource.C217_first_false",
    "Verif.SnsSource.C217_sign_false",
    "Verif.SnsSource.C217_source_false"
   ],
   "note": "False of the code: the search starts at the point behind Emin: for energies between these two it never ends (sns_source-lib.cc:233-255, SNS_source_r1.comp:182). Negation proved with a witness; the _partial theorem states what remains."
  },
  {
   "property": "C218",
   "status": "partial",
   "theorems": [
    "Verif.SnsSource.C218_table_partial",
    "Verif.SnsSource.C218_junk_false"
   ],
   "note": "False of the code: the loop uses one line more than the file has (sns_source-lib.cc:84-116): memory that was never written becomes the first emission time, and the number of times is one too large. Negation proved with a witness; the _partial theorem states what remains."
  },
  {
   "property": "C219",
   "status": "partial",
   "theorems": [
    "Verif.SnsSource.C219_focus_partial",
    "Verif.SnsSource.C219_height_false"
   ],
   "note": "False of the code: the two angles are chosen independently and used as spherical angles (SNS_source_r1.comp:168-174, 205-207): neutrons to the corners miss the rectangle. Negation proved with a witness; the _partial theorem states what remains."
  },
  {
   "property": "C220",
   "status": "proved",
   "theorems": [
    "Verif.SnsSource.C220_neutron",
    "Verif.SnsSource.C220_rotation"
   ],
   "note": "For the neutrons for which the component gives a result."
  },
  {
   "property": "C221",
   "status": "partial",
   "theorems": [
    "Verif.SnsSource.C221_mixture_partial",
    "Verif.SnsSource.C221_first_false"
   ],
   "note": "False of the code: for energies up to the first one of the table, this one included, values before the arrays are read (SNS_source_r1.comp:185-195). Negation proved with a witness; the _partial theorem states what remains."
  },
  {
   "property": "C222",
   "status": "partial",
   "theorems": [
    "Verif.SnsSource.C222_zero_partial",
    "Verif.SnsSource.C222_end_false"
   ],
   "note": "False of the code: if the intensity never becomes 0 the last two lines of the file are ignored (sns_source-lib.cc:49-60). Negation proved with a witness; the _partial theorem states what remains."
  },
  {
   "property": "C223",
   "status": "partial",
   "theorems": [
    "Verif.SnsSource.C223_area_partial",
    "Verif.SnsSource.C223_none_false"
   ],
   "note": "False of the code: without a radius and with a side 0 the area is not initialised (SNS_source_2020.comp:149-155). Negation proved with a witness; the _partial theorem states what remains."
  },
  {
   "property": "C224",
   "status": "proved",
   "theorems": [
    "Verif.Assembly.C224_axis",
    "Verif.Assembly.C224_euler",
    "Verif.Assembly.C224_length"
   ],
   "note": ""
  },
  {
   "property": "C225",
   "status": "proved",
   "theorems": [
    "Verif.Assembly.C225_body",
    "Verif.Assembly.C225_locate"
   ],
   "note": ""
  },
  {
   "property": "C226",
   "status": "partial",
   "theorems": [
    "Verif.Assembly.C226_same_partial",
    "Verif.Assembly.C226_moved_false",
    "Verif.Assembly.C226_error"
   ],
   "note": "False of the code: rotated and translated shapes end in NotImplementedError in the coordinate system of the instrument scientist (InstrumentScientistCSAdaptor...py:54-58). Negation proved with a witness; the _partial theorem states what remains."
  },
  {
   "property": "C227",
   "status": "proved",
   "theorems": [
    "Verif.Assembly.C227_cylinder",
    "Verif.Assembly.C227_shell",
    "Verif.Assembly.C227_refused"
   ],
   "note": ""
  },
  {
   "property": "C228",
   "status": "partial",
   "theorems": [
    "Verif.Assembly.C228_union_partial",
    "Verif.Assembly.C228_placed_partial"
   ],
   "note": "Partial: for composites whose shape was not asked for before, with different elements that have a shape; C229 has what fails otherwise."
  },
  {
   "property": "C229",
   "status": "partial",
   "theorems": [
    "Verif.Assembly.C229_fresh_partial",
    "Verif.Assembly.C229_stale_false",
    "Verif.Assembly.C229_twice_false",
    "Verif.Assembly.C229_copy_false"
   ],
   "note": "False of the code: the shape is remembered on the first query (CompositeScatterer.py:63-69), so elements added later are not in it; the geometer is a dictionary (mcni/Geometer.py:24), so an element added twice is in its last place only; copies have no method shape (ScattererCopy.py). Negation proved with a witness; the _partial theorem states what remains."
  },
  {
   "property": "C230",
   "status": "partial",
   "theorems": [
    "Verif.Assembly.C230_limits_partial",
    "Verif.Assembly.C230_zero_false",
    "Verif.Assembly.C230_homogeneous",
    "Verif.Assembly.C230_defaults",
    "Verif.Assembly.C230_weights_partial",
    "Verif.Assembly.C230_weight_false"
   ],
   "note": "False of the code: `or` replaces 0 by the default (CompositeScatterer.py:45-46, KernelComputationEngineRenderer.py:52): no multiple scattering becomes 5 loops, the weight 0 of a kernel becomes 1. Negation proved with a witness; the _partial theorem states what remains."
  },
  {
   "property": "C231",
   "status": "partial",
   "theorems": [
    "Verif.Assembly.C231_upright_partial",
    "Verif.Assembly.C231_lying",
    "Verif.Assembly.C231_default_false"
   ],
   "note": "False of the code: the rotated shape is computed but the unrotated cylinder is used (detector/__init__.py:76-88): long tubes in other directions than upwards, the default direction z in the default coordinate system included, fail the check. Negation proved with a witness; the _partial theorem states what remains."
  },
  {
   "property": "C232",
   "status": "partial",
   "theorems": [
    "Verif.Assembly.C232_rendered_partial",
    "Verif.Assembly.C232_homogeneous_false"
   ],
   "note": "False of the code: there is no handler onHomogeneousScattererCopy (ScattererComputationEngineRenderer.py:92-101). Negation proved with a witness; the _partial theorem states what remains."
  },
  {
   "property": "C233",
   "status": "proved",
   "theorems": [
    "Verif.KernelXml.C233_scalar",
    "Verif.KernelXml.C233_vector"
   ],
   "note": ""
  },
  {
   "property": "C234",
   "status": "proved",
   "theorems": [
    "Verif.KernelXml.C234_parameters"
   ],
   "note": "For IsotropicKernel, ConstantEnergyTransferKernel, ConstantQEKernel, ConstantvQEKernel, E_Q_Kernel, Broadened_E_Q_Kernel, LorentzianBroadened_E_Q_Kernel and E_vQ_Kernel."
  },
  {
   "property": "C235",
   "status": "partial",
   "theorems": [
    "Verif.KernelXml.C235_sample_partial",
    "Verif.KernelXml.C235_alone_false",
    "Verif.KernelXml.C235_unread_false",
    "Verif.KernelXml.C235_focus"
   ],
   "note": "False of the code: a coefficient given alone is replaced by that of the sample without a message (ComputationEngineRendererExtension.py:184-197); the parsers of SQkernel, SQEkernel and SvQkernel do not read theirs (kernelxml/parser/SQkernel.py:14-18). Negation proved with a witness; the _partial theorem states what remains."
  },
  {
   "property": "C236",
   "status": "partial",
   "theorems": [
    "Verif.KernelXml.C236_tree_partial",
    "Verif.KernelXml.C236_weight",
    "Verif.KernelXml.C236_box_false",
    "Verif.KernelXml.C236_top_false"
   ],
   "note": "False of the code: a container with an orientation is refused with TypeError (kernelxml/parser/KernelContainer.py:42-48, CompositeKernel.py:22); the orientation of a kernel that is in no container has no effect (KernelComputationEngineRenderer.py:65-90). Negation proved with a witness; the _partial theorem states what remains."
  },
  {
   "property": "C237",
   "status": "partial",
   "theorems": [
    "Verif.KernelXml.C237_partial",
    "Verif.KernelXml.C237_false"
   ],
   "note": "False of the code: every text that is not one of the ways to say yes means no (kernelxml/parser/KernelContainer.py:45), e.g. enabled. Negation proved with a witness; the _partial theorem states what remains."
  },
  {
   "property": "C238",
   "status": "partial",
   "theorems": [
    "Verif.KernelXml.C238_roundtrip_partial",
    "Verif.KernelXml.C238_range_false",
    "Verif.KernelXml.C238_container_false",
    "Verif.KernelXml.C238_missing_false",
    "Verif.KernelXml.C238_weight_false",
    "Verif.KernelXml.C238_escape_false",
    "Verif.KernelXml.C238_files_false"
   ],
   "note": "False of the code: the range of Q is written with the value of the range of energies (kernelxml/Renderer.py:43-46); containers are written with a tag whose parser takes only containers (hsxml/Renderer.py:30-40, hsxml/parser/CompositeKernel.py:46-48); six classes have no handler; weights, orientations and coefficients are not written; texts are not escaped (kernelxml/Renderer.py:91); all tables go to the same file (line 141). Negation proved with a witness; the _partial theorem states what remains."
  },
  {
   "property": "C239",
   "status": "partial",
   "theorems": [
    "Verif.KernelXml.C239_partial",
    "Verif.KernelXml.C239_false",
    "Verif.KernelXml.C239_request"
   ],
   "note": "False of the code: a norm between 0.8 and 1.2 is left as it is (kernelxml/parser/GridSQE.py:58-61). Negation proved with a witness; the _partial theorem states what remains."
  },
  {
   "property": "C240",
   "status": "partial",
   "theorems": [
    "Verif.KernelXml.C240_uniform_partial",
    "Verif.KernelXml.C240_sq_partial",
    "Verif.KernelXml.C240_svq_partial",
    "Verif.KernelXml.C240_false"
   ],
   "note": "False of the code: only the first bin, the ends and the number of bins are compared (bindings/BoostPythonBinding.py:133-141): unequal bins are accepted if the number of steps happens to be right. Negation proved with a witness; the _partial theorem states what remains."
  },
  {
   "property": "C241",
   "status": "proved",
   "theorems": [
    "Verif.KernelXml.C241_origin"
   ],
   "note": ""
  },
  {
   "property": "C242",
   "status": "partial",
   "theorems": [
    "Verif.KernelXml.C242_options_partial",
    "Verif.KernelXml.C242_written_false"
   ],
   "note": "False of the code: number of loops, minimal probability and packing factor are not written (hsxml/Renderer.py:43-57). Negation proved with a witness; the _partial theorem states what remains."
  },
  {
   "property": "C243",
   "status": "proved",
   "theorems": [
    "Verif.DataFiles.C243_laz",
    "Verif.DataFiles.C243_squared"
   ],
   "note": "The specification of a file (lines, words, labels, declared columns) is separate from the parser."
  },
  {
   "property": "C244",
   "status": "partial",
   "theorems": [
    "Verif.DataFiles.C244_partial",
    "Verif.DataFiles.C244_duplicate",
    "Verif.DataFiles.C244_false",
    "Verif.DataFiles.C244_lost",
    "Verif.DataFiles.C244_inline_false",
    "Verif.DataFiles.C244_end",
    "Verif.DataFiles.C244_end_false"
   ],
   "note": "False of the code: two comments that begin with the same word end in RuntimeError (laz.py:43-44); the newline is removed with a comment after numbers (laz.py:26, 94-95), so the next row is appended and its reflection lost without a message; a comment at the end without newline is read as data. Negation proved with a witness; the _partial theorem states what remains."
  },
  {
   "property": "C245",
   "status": "proved",
   "theorems": [
    "Verif.DataFiles.C245_sections"
   ],
   "note": ""
  },
  {
   "property": "C246",
   "status": "proved",
   "theorems": [
    "Verif.DataFiles.C246_lau"
   ],
   "note": ""
  },
  {
   "property": "C247",
   "status": "proved",
   "theorems": [
    "Verif.DataFiles.C247_same",
    "Verif.DataFiles.C247_cone"
   ],
   "note": ""
  },
  {
   "property": "C248",
   "status": "partial",
   "theorems": [
    "Verif.DataFiles.C248_partial",
    "Verif.DataFiles.C248_errors",
    "Verif.DataFiles.C248_false",
    "Verif.DataFiles.C248_word_false"
   ],
   "note": "False of the code: a line with nothing but a hash ends in IndexError (read_dos.py:58-59); the unit is searched in the first word of a comment only, so `# energy (meV)` ends in NotImplementedError. Negation proved with a witness; the _partial theorem states what remains."
  },
  {
   "property": "C249",
   "status": "partial",
   "theorems": [
    "Verif.Parallel.C249_partial",
    "Verif.Parallel.C249_false",
    "Verif.Parallel.C249_not_barrier_false",
    "Verif.Parallel.C249_sync_false",
    "Verif.Parallel.C249_two"
   ],
   "note": "False of the code: node 0 only sends and the others only receive (ParallelComponent.py:106-110): node 0 goes on while no other node has arrived; with three nodes node 1 leaves before node 2 has entered even if send blocks. Negation proved with a witness; the _partial theorem states what remains."
  },
  {
   "property": "C250",
   "status": "proved",
   "theorems": [
    "Verif.Parallel.C250_live",
    "Verif.Parallel.C250_bound",
    "Verif.Parallel.C250_finish"
   ],
   "note": ""
  },
  {
   "property": "C251",
   "status": "partial",
   "theorems": [
    "Verif.Parallel.C251_false",
    "Verif.Parallel.C251_partial"
   ],
   "note": "False of the code: tags are numbers of calls of the process: a node that skipped a barrier takes the old message for the new one and leaves before node 0 enters. Negation proved with a witness; the _partial theorem states what remains."
  },
  {
   "property": "C252",
   "status": "partial",
   "theorems": [
    "Verif.Parallel.C252_false",
    "Verif.Parallel.C252_partial"
   ],
   "note": "False of the code: barrier does not wait for the others (C249), so the merged file lacks the events of nodes that are slower; the sleep of five seconds (EventAreaMonitor.py:119) bounds nothing. Negation proved with a witness; the _partial theorem states what remains."
  },
  {
   "property": "C253",
   "status": "partial",
   "theorems": [
    "Verif.Parallel.C253_false",
    "Verif.Parallel.C253_partial"
   ],
   "note": "False of the code: the nodes are released before node 0 looks (Instrument.py:226-231): another node may have made outputdir/rank1-step0, and node 0 stops with \"output directory exists\". Negation proved with a witness; the _partial theorem states what remains."
  },
  {
   "property": "C254",
   "status": "proved",
   "theorems": [
    "Verif.NdAxes.C254_axes",
    "Verif.NdAxes.C254_order"
   ],
   "note": ""
  },
  {
   "property": "C255",
   "status": "partial",
   "theorems": [
    "Verif.NdAxes.C255_partial",
    "Verif.NdAxes.C255_false",
    "Verif.NdAxes.C255_unit_false",
    "Verif.NdAxes.C255_ignored_false"
   ],
   "note": "False of the code: the unit is looked up unconditionally (_ndmonitor.py:234), so the documented ndmonitor(\"x\", \"inverseX\", inverseX=\"1/x\") ends in KeyError; an expression for x, y, z, vx, vy, vz or t is ignored but its unit is used (_ndmonitor.py:230-234). Negation proved with a witness; the _partial theorem states what remains."
  },
  {
   "property": "C256",
   "status": "partial",
   "theorems": [
    "Verif.NdAxes.C256_partial",
    "Verif.NdAxes.C256_fixed",
    "Verif.NdAxes.C256_false",
    "Verif.NdAxes.C256_reopen_false"
   ],
   "note": "False of the code: setting the same size again writes the digits a second time (PacketSizeStore.py:48-51), so 10 is read as 1010 later; an existing file is opened for reading, so setting the same size fails there. Negation proved with a witness; the _partial theorem states what remains."
  },
  {
   "property": "C257",
   "status": "partial",
   "theorems": [
    "Verif.McOptB.C257_partial",
    "Verif.McOptB.C257_even",
    "Verif.McOptB.C257_false",
    "Verif.McOptB.C257_sharp_false",
    "Verif.McOptB.C257_negative_false"
   ],
   "note": "False of the code: m = 0 with W = 0 and alpha = 0 reflects with R0 (ref-lib.cc:67-76 replaces m before it is tested in line 80); W = 0 gives no reflection at all (ref-lib.cc:78-83); alpha (|q| - Qc) > 1 gives a negative reflectivity, e.g. m = 10 (ref-lib.cc:93). Negation proved with a witness; the _partial theorem states what remains."
  },
  {
   "property": "C258",
   "status": "proved",
   "theorems": [
    "Verif.McOptB.C258_slit",
    "Verif.McOptB.C258_first",
    "Verif.McOptB.C258_width"
   ],
   "note": "Specification: a slit is there if the angle of the disk differs from that of the neutron by less than half an opening, up to multiples of the distance of slits."
  },
  {
   "property": "C259",
   "status": "partial",
   "theorems": [
    "Verif.McOptB.C259_partial",
    "Verif.McOptB.C259_options",
    "Verif.McOptB.C259_add_false",
    "Verif.McOptB.C259_words_false"
   ],
   "note": "False of the code: the mode add has no branch of its own and sets the weight (Filter_gen.comp:205-206); the word wavector of the documentation is not known, and the copy in lower case is not used (Filter_gen.comp:107-127): then every neutron passes. Negation proved with a witness; the _partial theorem states what remains."
  },
  {
   "property": "C260",
   "status": "partial",
   "theorems": [
    "Verif.McOptB.C260_partial",
    "Verif.McOptB.C260_aside",
    "Verif.McOptB.C260_channels_false",
    "Verif.McOptB.C260_above_false",
    "Verif.McOptB.C260_ideal_false"
   ],
   "note": "False of the code: neutrons above or below are absorbed although the documentation transmits them (Collimator_radial.comp:153-159); the ideal collimator has no angular range (Collimator_radial.comp:170-171); a divergence overwrites the number of channels after their widths were computed (Collimator_radial.comp:114-120). Negation proved with a witness; the _partial theorem states what remains."
  },
  {
   "property": "C261",
   "status": "partial",
   "theorems": [
    "Verif.McOptB.C261_partial"
   ],
   "note": "Missing: that the loop ends."
  },
  {
   "property": "C262",
   "status": "proved",
   "theorems": [
    "Verif.McBend.C262_trace",
    "Verif.McBend.C262_speed",
    "Verif.McBend.C262_stopped"
   ],
   "note": "Assumed: the radius is larger than the width, the neutron flies forward, and it does not start at a wall along that wall (there the machine divides 0 by 0)."
  },
  {
   "property": "C263",
   "status": "partial",
   "theorems": [
    "Verif.McBend.C263_false",
    "Verif.McBend.C263_partial"
   ],
   "note": "False of the code: only atan(vx/vz) is used (Bender.comp:182), so the sign of vz is lost. Negation proved with a witness; the _partial theorem states what remains."
  },
  {
   "property": "C264",
   "status": "partial",
   "theorems": [
    "Verif.McGrav.C264_outside",
    "Verif.McGrav.C264_partial",
    "Verif.McGrav.C264_straight",
    "Verif.McGrav.C264_false"
   ],
   "note": "False of the code: flights of less than 1e-10 seconds are ignored (Guide_gravity.comp:306, 322): a neutron that meets an absorbing wall 1e-11 s behind the entrance flies through it and leaves beside the guide with its full weight. Negation proved with a witness; the _partial theorem states what remains."
  },
  {
   "property": "C265",
   "status": "proved",
   "theorems": [
    "Verif.McGrav.C265_energy"
   ],
   "note": ""
  },
  {
   "property": "C266",
   "status": "proved",
   "theorems": [
    "Verif.McGrav.C266_weight",
    "Verif.McGrav.C266_exit"
   ],
   "note": ""
  },
  {
   "property": "C267",
   "status": "partial",
   "theorems": [
    "Verif.McGrav.C267_partial",
    "Verif.McGrav.C267_false"
   ],
   "note": "False of the code: fmod keeps the sign, but only angles between 90 and 270 degrees are reduced (Guide_gravity.comp:427-430): a phase of -180 degrees absorbs every neutron of the axis, +180 passes them. Negation proved with a witness; the _partial theorem states what remains."
  },
  {
   "property": "C268",
   "status": "partial",
   "theorems": [
    "Verif.McGrav.C268_partial",
    "Verif.McGrav.C268_false"
   ],
   "note": "False of the code: G is described as a norm, but is used as the component along y (Guide_gravity.comp:393-395): 9.8 accelerates upwards, and a tilted guide has gravity along its own axis. Negation proved with a witness; the _partial theorem states what remains."
  },
  {
   "property": "C269",
   "status": "partial",
   "theorems": [
    "Verif.McInstr.C269_read_partial",
    "Verif.McInstr.C269_parentheses_false",
    "Verif.McInstr.C269_quotes_false",
    "Verif.McInstr.C269_one_line_false",
    "Verif.McInstr.C269_blank_false"
   ],
   "note": "False of the code: an expression in parentheses among the parameters makes the component vanish and another one appear that has the name of the parameter and no type (McStasInstrumentParser.py:94-96, 154-163); values with a comma are cut and values with an equal sign are lost without a message (lines 206-213); AT and ROTATED on one line give a text as coordinate and lose the rotation (line 98); AT without a blank before the parenthesis is lost (lines 257-262). Negation proved with a witness; the _partial theorem states what remains."
  },
  {
   "property": "C270",
   "status": "partial",
   "theorems": [
    "Verif.McInstr.C270_comments_partial",
    "Verif.McInstr.C270_line_comment_false"
   ],
   "note": "False of the code: only /* */ is removed: a component behind // is converted (McStasInstrumentParser.py:91, 372-376). Negation proved with a witness; the _partial theorem states what remains."
  },
  {
   "property": "C271",
   "status": "partial",
   "theorems": [
    "Verif.McInstr.C271_script_partial",
    "Verif.McInstr.C271_reference_false",
    "Verif.McInstr.C271_previous_false",
    "Verif.McInstr.C271_origin_false"
   ],
   "note": "False of the code: the reference of the position is also used for the orientation (convertinstrument.py:88-92); PREVIOUS becomes a variable that does not exist (NameError); a position that could not be read becomes the origin (Instrument.py:68, 80). Negation proved with a witness; the _partial theorem states what remains."
  },
  {
   "property": "C272",
   "status": "partial",
   "theorems": [
    "Verif.McInstr.C272_coord",
    "Verif.McInstr.C272_values_partial",
    "Verif.McInstr.C272_names_false"
   ],
   "note": "False of the code: eval is applied to names, types and references too, with the functions of python in its environment (pml.py:183-186): a component named filter loses its name. Negation proved with a witness; the _partial theorem states what remains."
  },
  {
   "property": "C273",
   "status": "partial",
   "theorems": [
    "Verif.Launch.C273_partial",
    "Verif.Launch.C273_cmd",
    "Verif.Launch.C273_false"
   ],
   "note": "False of the code: a quotation mark in a value ends the quotes of the command, arguments without = are not quoted (MPILauncherBase.py:80-88), the serial launcher quotes nothing (LauncherSerial.py:56). Negation proved with a witness; the _partial theorem states what remains."
  },
  {
   "property": "C274",
   "status": "proved",
   "theorems": [
    "Verif.Launch.C274_modes"
   ],
   "note": ""
  },
  {
   "property": "C275",
   "status": "partial",
   "theorems": [
    "Verif.Launch.C275_partial",
    "Verif.Launch.C275_false"
   ],
   "note": "False of the code: samplecomponent has no finally: after an exception in the sample the program stays in the directory of the sample (sample/__init__.py:29-40). Negation proved with a witness; the _partial theorem states what remains."
  },
  {
   "property": "C276",
   "status": "partial",
   "theorems": [
    "Verif.Launch.C276_partial",
    "Verif.Launch.C276_false"
   ],
   "note": "False of the code: if category and supplier are given nothing is checked (_find_component.py:16-17). Negation proved with a witness; the _partial theorem states what remains."
  },
  {
   "property": "C277",
   "status": "partial",
   "theorems": [
    "Verif.McPulse.C277_place",
    "Verif.McPulse.C277_mean",
    "Verif.McPulse.C277_frame_false"
   ],
   "note": "False of the code: `branchframe = 0` is accepted, but then the pulse itself is never emitted (`C277_frame_false`); the times sampled are between -tau log(1 + 1e-12) and 27.6 tau, as the statement says. Negation proved with a witness; the _partial theorem states what remains."
  },
  {
   "property": "C278",
   "status": "partial",
   "theorems": [
    "Verif.McPulse.C278_place",
    "Verif.McPulse.C278_frame",
    "Verif.McPulse.C278_bulk_partial",
    "Verif.McPulse.C278_tail_partial",
    "Verif.McPulse.C278_first_false",
    "Verif.McPulse.C278_second_false"
   ],
   "note": "False of the code: the tail of the first spectrum lacks the correction for the shape of the pulse (only its comment is left, line 189), so that with the default parameters its weight is too large (`C278_first_false`); in the tail of the second spectrum the correction is divided by `n` instead of `n2` (line 204, `C278_second_false`). Negation proved with a witness; the _partial theorem states what remains."
  },
  {
   "property": "C279",
   "status": "partial",
   "theorems": [
    "Verif.McCurved.C279_new",
    "Verif.McCurved.C279_misses",
    "Verif.McCurved.C279_focus",
    "Verif.McCurved.C279_partial",
    "Verif.McCurved.C279_specular",
    "Verif.McCurved.C279_time_false",
    "Verif.McCurved.C279_neighbour_false",
    "Verif.McCurved.C279_radius_false",
    "Verif.McCurved.C279_normal_false"
   ],
   "note": "False of the code: the slab is chosen by where the plane x = 0 is met: a neutron passes an opaque slab unchanged if that is in the cell of the neighbour (`C279_neighbour_false`), and a neutron that is behind the turned slab already is moved back in time (`C279_time_false`); a radius of curvature smaller than the crystal is accepted and gives numbers that are not defined (`C279_radius_false`); neutrons along the normal of a slab are never reflected (`C279_normal_false`). Negation proved with a witness; the _partial theorem states what remains."
  },
  {
   "property": "C280",
   "status": "partial",
   "theorems": [
    "Verif.McHyspec.C280_partial",
    "Verif.McHyspec.C280_ends",
    "Verif.McHyspec.C280_arc",
    "Verif.McHyspec.C280_gap",
    "Verif.McHyspec.C280_frame_false",
    "Verif.McHyspec.C280_single",
    "Verif.McHyspec.C280_time_false"
   ],
   "note": "False of the code: the neutron is left in the frame of the last piece, shifted along z: a neutron that flies straight through without touching a mirror is returned at another place and with another direction (`C280_frame_false`; the code that turns back is a comment); without a gap between the pieces neutrons are moved back in time to the next entrance (`C280_time_false`). Negation proved with a witness; the _partial theorem states what remains."
  },
  {
   "property": "C281",
   "status": "partial",
   "theorems": [
    "Verif.McWavy.C281_partial",
    "Verif.McWavy.C281_width",
    "Verif.McWavy.C281_angle",
    "Verif.McWavy.C281_speed",
    "Verif.McWavy.C281_behind_false"
   ],
   "note": "False of the code: if the tilt is larger than the angle of incidence the neutron is mirrored into the wall (the sign of the product with the normal is dropped by `fabs`) and reflected again at the same place, with the reflectivity twice (`C281_behind_false`). Negation proved with a witness; the _partial theorem states what remains."
  },
  {
   "property": "C282",
   "status": "partial",
   "theorems": [
    "Verif.McComp.C282_partial",
    "Verif.McComp.C282_names",
    "Verif.McComp.C282_quoted_false",
    "Verif.McComp.C282_comment_false"
   ],
   "note": "False of the code: a comma in quotes separates parameters, a default with an equal sign in quotes is lost (McStasComponentParser.py:343, 372-375; `C282_quoted_false`); comments // are not removed, and one of them inside a list makes the whole list empty without a message (lines 306, 351-352; `C282_comment_false`). Negation proved with a witness; the _partial theorem states what remains."
  },
  {
   "property": "C283",
   "status": "partial",
   "theorems": [
    "Verif.McComp.C283_partial",
    "Verif.McComp.C283_header",
    "Verif.McComp.C283_types",
    "Verif.McComp.C283_expr_false"
   ],
   "note": "False of the code: a default that is an expression becomes 0 without a message (ComponentInfo.py:95-98), as freq=50.0/3.0 in sources/original/ESS_moderator_long.comp (`C283_expr_false`). Negation proved with a witness; the _partial theorem states what remains."
  },
  {
   "property": "C284",
   "status": "partial",
   "theorems": [
    "Verif.McComp.C284_section",
    "Verif.McComp.C284_share_partial",
    "Verif.McComp.C284_separator",
    "Verif.McComp.C284_single_false"
   ],
   "note": "False of the code: a section SHARE on one line is dropped without a message (__init__.py:66; `C284_single_false`). Negation proved with a witness; the _partial theorem states what remains."
  },
  {
   "property": "C285",
   "status": "partial",
   "theorems": [
    "Verif.McRotor.C285_frame",
    "Verif.McRotor.C285_half_partial",
    "Verif.McRotor.C285_arc_false",
    "Verif.McRotor.C285_memory_false"
   ],
   "note": "False of the code: for curvature 0 the member C_slit is never set (FermiChopper.comp:282, 347-352; `C285_memory_false`); with a curvature each wall is two arcs with a corner in the middle (lines 200-206; `C285_arc_false`). Negation proved with a witness; the _partial theorem states what remains."
  },
  {
   "property": "C286",
   "status": "partial",
   "theorems": [
    "Verif.McRotor.C286_partial",
    "Verif.McRotor.C286_same",
    "Verif.McRotor.C286_time",
    "Verif.McRotor.C286_slits_false"
   ],
   "note": "False of the code: if the slits do not fit, floor(radius/w) of them are left although twice as many fit (lines 323-324; `C286_slits_false`). Negation proved with a witness; the _partial theorem states what remains."
  },
  {
   "property": "C287",
   "status": "partial",
   "theorems": [
    "Verif.McRotor.C287_range",
    "Verif.McRotor.C287_line_partial"
   ],
   "note": "Range for every function; exact for a chopper at rest; no estimate of the error for one that turns."
  },
  {
   "property": "C288",
   "status": "partial",
   "theorems": [
    "Verif.McRotor.C288_partial",
    "Verif.McRotor.C288_rest",
    "Verif.McRotor.C288_even",
    "Verif.McRotor.C288_single_false",
    "Verif.McRotor.C288_blades_false"
   ],
   "note": "False of the code: the path is compared with the slit at three times only (lines 503-540), one of which is compared with an interval it does not belong to (line 529), so neutrons cross blades (`C288_blades_false`); with an odd number of slits the middle one is divided by a wall (floor(x/w), lines 503-507; `C288_single_false`). Negation proved with a witness; the _partial theorem states what remains."
  },
  {
   "property": "C289",
   "status": "partial",
   "theorems": [
    "Verif.McRotor.C289_speed_partial",
    "Verif.McRotor.C289_mirror_partial",
    "Verif.McRotor.C289_moving_false",
    "Verif.McRotor.C289_once_partial",
    "Verif.McRotor.C289_lost_false"
   ],
   "note": "False of the code: the velocity of the wall is ignored (lines 581-610; `C289_moving_false`); after a reflection the neutron is taken to be in the slit on the other side (n1 = n3, line 612), so with perfect mirrors neutrons are absorbed (`C289_lost_false`). Negation proved with a witness; the _partial theorem states what remains."
  },
  {
   "property": "C290",
   "status": "partial",
   "theorems": [
    "Verif.Proxy.C290_energy",
    "Verif.Proxy.C290_wavelength",
    "Verif.Proxy.C290_hdiv",
    "Verif.Proxy.C290_tof_partial",
    "Verif.Proxy.C290_divpos",
    "Verif.Proxy.C290_divergence",
    "Verif.Proxy.C290_psd_partial",
    "Verif.Proxy.C290_iqe_partial",
    "Verif.Proxy.C290_sphere_partial",
    "Verif.Proxy.C290_psd_false",
    "Verif.Proxy.C290_sphere_false"
   ],
   "note": "False of the code: PSD_monitor.py:34-35 and IQE_monitor.py:59-62 use the lower edges of the bins as coordinates: half a bin off (`C290_psd_false`); PSD_monitor_4PI.py:30 gives azimuths from 0 to 360 for channels that run from -180 to 180: a neutron straight ahead is shown at 180 degrees (`C290_sphere_false`). Negation proved with a witness; the _partial theorem states what remains."
  },
  {
   "property": "C291",
   "status": "partial",
   "theorems": [
    "Verif.Proxy.C291_partial",
    "Verif.Proxy.C291_wavelength_false",
    "Verif.Proxy.C291_psd_false",
    "Verif.Proxy.C291_iqe_false",
    "Verif.Proxy.C291_sphere_false"
   ],
   "note": "False of the code: the stop of the axis is an exact multiple of the step in L_monitor.py:23, PSD_monitor.py:34-35, IQE_monitor.py:59-62 and PSD_monitor_4PI.py:30-33, so rounding decides: wavelengths from 1 to 4 in 10 channels give 11 coordinates, and no histogram (`C291_wavelength_false`, `C291_psd_false` with 49 columns, `C291_iqe_false`, `C291_sphere_false` with 161 columns). Negation proved with a witness; the _partial theorem states what remains."
  },
  {
   "property": "C292",
   "status": "partial",
   "theorems": [
    "Verif.Proxy.C292_engine",
    "Verif.Proxy.C292_read_partial",
    "Verif.Proxy.C292_read_false",
    "Verif.Proxy.C292_restore_partial",
    "Verif.Proxy.C292_restore_false",
    "Verif.Proxy.C292_blank_false"
   ],
   "note": "False of the code: values given at construction are also put into the `__dict__` (base.py:11-12), where assignments do not reach them: comp.filename = \"b.dat\" changes the file of the C++ part, reads as before, and the histogram goes to the old file (`C292_read_false`); restore_neutron=True given at construction cannot be switched off before the first round (`C292_restore_false`); __getattr__ recurs without end on an object made without __init__ (`C292_blank_false`). Negation proved with a witness; the _partial theorem states what remains."
  },
  {
   "property": "C293",
   "status": "partial",
   "theorems": [
    "Verif.Proxy.C293_round",
    "Verif.Proxy.C293_names_partial",
    "Verif.Proxy.C293_names_false"
   ],
   "note": "False of the code: two monitors with files that differ only by the extension write the same histogram (monitors/base.py:29-31; `C293_names_false`). Negation proved with a witness; the _partial theorem states what remains."
  },
  {
   "property": "C294",
   "status": "partial",
   "theorems": [
    "Verif.Proxy.C294_partial",
    "Verif.Proxy.C294_kept_false"
   ],
   "note": "False of the code: the normalization is computed once and kept when parameters change (IQE_monitor.py:18-23; `C294_kept_false`). Negation proved with a witness; the _partial theorem states what remains."
  },
  {
   "property": "C295",
   "status": "proved",
   "theorems": [
    "Verif.Rounding.C295_boundaries",
    "Verif.Rounding.C295_add",
    "Verif.Rounding.C295_exact"
   ],
   "note": ""
  },
  {
   "property": "C296",
   "status": "partial",
   "theorems": [
    "Verif.Rounding.C296_count",
    "Verif.Rounding.C296_doubles",
    "Verif.Rounding.C296_exact",
    "Verif.Rounding.C296_more_partial",
    "Verif.Rounding.C296_more_false"
   ],
   "note": "False of the code: the end of the extended axis in multiphonon.py:55-56 is an exact multiple of the step: for energies 0, 2.3, ... of five points there are sixteen instead of fifteen (`C296_more_false`); the extra point only is a zero more. Negation proved with a witness; the _partial theorem states what remains."
  },
  {
   "property": "C297",
   "status": "partial",
   "theorems": [
    "Verif.NiceDos.C297_partial",
    "Verif.NiceDos.C297_line_partial",
    "Verif.NiceDos.C297_false"
   ],
   "note": "False of the code: the slice y[(window_len//2-1):-(window_len//2)-1] (utils.py:142) is centred one point too early: every smoothed density of states is moved by one step to higher energy (`C297_false`). Negation proved with a witness; the _partial theorem states what remains."
  },
  {
   "property": "C298",
   "status": "partial",
   "theorems": [
    "Verif.NiceDos.C298_fit",
    "Verif.NiceDos.C298_exact",
    "Verif.NiceDos.C298_norm",
    "Verif.NiceDos.C298_finer",
    "Verif.NiceDos.C298_end_false"
   ],
   "note": "False of the code: the largest energy of data with fewer than 500 points is lost (utils.py:26; `C298_end_false`). Negation proved with a witness; the _partial theorem states what remains."
  },
  {
   "property": "C299",
   "status": "partial",
   "theorems": [
    "Verif.NiceDos.C299_caller_false",
    "Verif.NiceDos.C299_caller_partial",
    "Verif.NiceDos.C299_accepted",
    "Verif.NiceDos.C299_accepted_short",
    "Verif.NiceDos.C299_result"
   ],
   "note": "False of the code: the fit and the normalisation are done in place: a histogram with 500 points or more is overwritten by making a kernel from it (utils.py:37, 69; `C299_caller_false`). Negation proved with a witness; the _partial theorem states what remains."
  },
  {
   "property": "C300",
   "status": "proved",
   "theorems": [
    "Verif.ResPixel.C300_one_over_v",
    "Verif.ResPixel.C300_density"
   ],
   "note": ""
  },
  {
   "property": "C301",
   "status": "proved",
   "theorems": [
    "Verif.ResPixel.C301_passage",
    "Verif.ResPixel.C301_mean"
   ],
   "note": ""
  },
  {
   "property": "C302",
   "status": "partial",
   "theorems": [
    "Verif.ResPixel.C302_undetected_false",
    "Verif.ResPixel.C302_gain_false",
    "Verif.ResPixel.C302_partial",
    "Verif.ResPixel.C302_multiple"
   ],
   "note": "False of the code: a neutron that leaves before the time asked for gets the weight numeric_limits<float>::epsilon whatever its own weight was, also 0 (DGSSXResPixel.cc:75-83; `C302_undetected_false`); the weight of detection at one time is a density and may be larger than 1 (`C302_gain_false`). Negation proved with a witness; the _partial theorem states what remains."
  },
  {
   "property": "C303",
   "status": "partial",
   "theorems": [
    "Verif.McGen.C303_spectrum_partial",
    "Verif.McGen.C303_normal",
    "Verif.McGen.C303_second_false"
   ],
   "note": "False of the code: the second and third spectrum are ignored if the first temperature is 0, documented as none (Source_gen.comp:518; `C303_second_false`). Negation proved with a witness; the _partial theorem states what remains."
  },
  {
   "property": "C304",
   "status": "partial",
   "theorems": [
    "Verif.McGen.C304_mean_false",
    "Verif.McGen.C304_single_false",
    "Verif.McGen.C304_partial"
   ],
   "note": "False of the code: Lambda0 is set to 0 in line 205, so that a mean wave length with a spread ends the program (`C304_mean_false`), and without a spread all neutrons are absorbed (`C304_single_false`); limits of the energy in the wrong order are accepted and all neutrons absorbed. Negation proved with a witness; the _partial theorem states what remains."
  },
  {
   "property": "C305",
   "status": "partial",
   "theorems": [
    "Verif.McGen.C305_partial",
    "Verif.McGen.C305_divergence_false",
    "Verif.McGen.C305_length_false",
    "Verif.McGen.C305_area_false"
   ],
   "note": "False of the code: with distance 0, when the size of the target is a divergence, the z component of the direction is 0 for every neutron (lines 490-505; `C305_divergence_false`); the direction does not take into account the position along a source with a length (`C305_length_false`); if the radius is given as well as height and width, the points are in the rectangle and the weight is that of the disk (lines 399, 473; `C305_area_false`); the time is not set. Negation proved with a witness; the _partial theorem states what remains."
  },
  {
   "property": "C306",
   "status": "partial",
   "theorems": [
    "Verif.Debye.C306_partial",
    "Verif.Debye.C306_limits",
    "Verif.Debye.C306_high_false",
    "Verif.Debye.C306_zero_false"
   ],
   "note": "False of the code: the series is cut after 34 terms, which are not enough for temperatures far above the Debye temperature: more than two percent too large for T = 30 TD (vogel.py:12; `C306_high_false`); for T = 0 there is a ZeroDivisionError (`C306_zero_false`). Negation proved with a witness; the _partial theorem states what remains."
  },
  {
   "property": "C307",
   "status": "partial",
   "theorems": [
    "Verif.Debye.C307_partial",
    "Verif.Debye.C307_high_false"
   ],
   "note": "False of the code: the same (vogel.py:20; `C307_high_false`). Negation proved with a witness; the _partial theorem states what remains."
  },
  {
   "property": "C308",
   "status": "partial",
   "theorems": [
    "Verif.Debye.C308_partial",
    "Verif.Debye.C308_isotope_false",
    "Verif.Debye.C308_zero_false"
   ],
   "note": "False of the code: the Debye temperature is looked up by the name with digits and signs although the mass is not: iron-57 gets 1000 K instead of 470 K, with a warning (atomic_scattering.py:35, 42; `C308_isotope_false`); T = 0 raises an exception (`C308_zero_false`). Negation proved with a witness; the _partial theorem states what remains."
  },
  {
   "property": "C309",
   "status": "proved",
   "theorems": [
    "Verif.Ikeda.C309_pulse"
   ],
   "note": ""
  },
  {
   "property": "C310",
   "status": "partial",
   "theorems": [
    "Verif.Ikeda.C310_partial",
    "Verif.Ikeda.C310_four_partial",
    "Verif.Ikeda.C310_abort_false"
   ],
   "note": "False of the code: SNS_source4 starts the search with the unnormalised value at the end of the range (SNS_source4.comp:289): with a window of time that holds 8 percent of the pulse and the random number 0.9999 the search runs away and the program aborts (`C310_abort_false`). Negation proved with a witness; the _partial theorem states what remains."
  },
  {
   "property": "C311",
   "status": "proved",
   "theorems": [
    "Verif.Ikeda.C311_long",
    "Verif.Ikeda.C311_cumulative"
   ],
   "note": ""
  },
  {
   "property": "C312",
   "status": "partial",
   "theorems": [
    "Verif.Ikeda.C312_partial",
    "Verif.Ikeda.C312_delay_false",
    "Verif.Ikeda.C312_sign_false"
   ],
   "note": "False of the code: in SNS_source4 the delay is added twice (line 627; `C312_delay_false`), a term of `intint_ikecar` has the wrong sign (line 454; `C312_sign_false`), the term b/a/a(1+2l+3l^2) has the wrong sign and in `CImin` (tt-T) stands for (T-tt) (line 566). Negation proved with a witness; the _partial theorem states what remains."
  },
  {
   "property": "C313",
   "status": "partial",
   "theorems": [
    "Verif.Ikeda.C313_partial",
    "Verif.Ikeda.C313_four_partial",
    "Verif.Ikeda.C313_units_false",
    "Verif.Ikeda.C313_table_false"
   ],
   "note": "False of the code: SNS_source4 gives the mean of the spectrum over the range and not the number of neutrons promised (lines 776-796; `C313_units_false`); in SNS_source_analytic E0 has no value when the loop of `CItot` begins, and the first value of the spectrum is taken at an energy in meV (lines 216-220; `C313_table_false`); other values of sample_E go on without values in SNS_source4. Negation proved with a witness; the _partial theorem states what remains."
  },
  {
   "property": "C314",
   "status": "partial",
   "theorems": [
    "Verif.Ikeda.C314_partial",
    "Verif.Ikeda.C314_four_partial",
    "Verif.Ikeda.C314_weight_false",
    "Verif.Ikeda.C314_window_false",
    "Verif.Ikeda.C314_number_false"
   ],
   "note": "False of the code: in SNS_source4 times from the distribution have the weight 1 whatever part of the pulse the window holds (line 814; `C314_weight_false`; also the documentation of sample_t exchanges 0 and 1); in the short pulse mode of SNS_source_analytic the length of the range is counted from tinmin (line 1019), so that times are beyond the window (`C314_window_false`) and the number of neutrons is wrong (`C314_number_false`). Negation proved with a witness; the _partial theorem states what remains."
  },
  {
   "property": "C315",
   "status": "partial",
   "theorems": [
    "Verif.McTew.C315_partial",
    "Verif.McTew.C315_time_false",
    "Verif.McTew.C315_start_false",
    "Verif.McTew.C315_area_false",
    "Verif.McTew.C315_keywords"
   ],
   "note": "False of the code: the time of flight is taken before the flight to the monitor (line 156; `C315_time_false`); a neutron that starts inside of the 0.1 mm of the monitor, e.g. on its middle plane behind another monitor, is absorbed and not counted (line 166; `C315_start_false`); a height of 0 is accepted (line 96; `C315_area_false`). Negation proved with a witness; the _partial theorem states what remains."
  },
  {
   "property": "C316",
   "status": "partial",
   "theorems": [
    "Verif.McTew.C316_density",
    "Verif.McTew.C316_axis_partial",
    "Verif.McTew.C316_axis_false"
   ],
   "note": "False of the code: without an upper limit the lower limit is ignored (lines 127-131; `C316_axis_false`). Negation proved with a witness; the _partial theorem states what remains."
  },
  {
   "property": "C317",
   "status": "partial",
   "theorems": [
    "Verif.McTew.C317_partial",
    "Verif.McTew.C317_zero_false",
    "Verif.McTew.C317_total_false"
   ],
   "note": "False of the code: `mcget_run_num` is the constant 1 (misc_macros.h:31): the error of every cell is 0 (`C317_zero_false`) and that of the total is the root of a negative number (`C317_total_false`). Negation proved with a witness; the _partial theorem states what remains."
  },
  {
   "property": "C318",
   "status": "proved",
   "theorems": [
    "Verif.McPowderN.C318_bragg",
    "Verif.McPowderN.C318_wavevector"
   ],
   "note": ""
  },
  {
   "property": "C319",
   "status": "partial",
   "theorems": [
    "Verif.McPowderN.C319_band_partial",
    "Verif.McPowderN.C319_mean_partial",
    "Verif.McPowderN.C319_whole_partial",
    "Verif.McPowderN.C319_sample_partial",
    "Verif.McPowderN.C319_history_false"
   ],
   "note": "False of the code: the member d_phi is set to 0 when a cone lies within the opening (line 590): this and all neutrons behind it are no longer focused (`C319_history_false`). Negation proved with a witness; the _partial theorem states what remains."
  },
  {
   "property": "C320",
   "status": "partial",
   "theorems": [
    "Verif.McPowderN.C320_section",
    "Verif.McPowderN.C320_total_partial",
    "Verif.McPowderN.C320_fractions",
    "Verif.McPowderN.C320_edge_false"
   ],
   "note": "False of the code: the sum my_s_v2_sum is over all lines, also those with q > 2k (lines 474, 546): below the edge neutrons are attenuated by lines that cannot scatter them (`C320_edge_false`). Negation proved with a witness; the _partial theorem states what remains."
  },
  {
   "property": "C321",
   "status": "partial",
   "theorems": [
    "Verif.McPowderN.C321_partial",
    "Verif.McPowderN.C321_nolines_false",
    "Verif.McPowderN.C321_hollow_false",
    "Verif.McPowderN.C321_start_false"
   ],
   "note": "False of the code: the way before the scattering is speed times time and includes the hollow (line 557; `C321_hollow_false`); half of the points are put on the near part even if that has no length: a neutron that starts in the hollow is scattered in the hollow (lines 540-544; `C321_start_false`); without lines the neutrons chosen for them go on with their full weight, 1.9 times as many come out as went in with the defaults (line 572; `C321_nolines_false`). Negation proved with a witness; the _partial theorem states what remains."
  },
  {
   "property": "C322",
   "status": "partial",
   "theorems": [
    "Verif.McPowderN.C322_partial",
    "Verif.McPowderN.C322_memory_false",
    "Verif.McPowderN.C322_groups_false",
    "Verif.McPowderN.C322_columns",
    "Verif.McPowderN.C322_row",
    "Verif.McPowderN.C322_defaults"
   ],
   "note": "False of the code: the multiplicity of the last line is compared with what is behind the list (line 351; `C322_memory_false`); only the first line of the table can be recognised as repeated, since the counters are not reset for other ones, and a last line that is not repeated is set to 1 instead of a copy (lines 348-360; `C322_groups_false`). Negation proved with a witness; the _partial theorem states what remains."
  },
  {
   "property": "C323",
   "status": "partial",
   "theorems": [
    "Verif.McCrystal.C323_angles",
    "Verif.McCrystal.C323_vectors",
    "Verif.McCrystal.C323_recip_partial",
    "Verif.McCrystal.C323_hand_false",
    "Verif.McCrystal.C323_orient_false",
    "Verif.McCrystal.C323_default_false"
   ],
   "note": "False of the code: a left-handed cell gets a reciprocal lattice of the wrong sign (`C323_hand_false`); angles in the header of a table turn the edges of the parameters into their standard orientation (`C323_orient_false`); if one edge is missing the default overwrites others (`C323_default_false`). Negation proved with a witness; the _partial theorem states what remains."
  },
  {
   "property": "C324",
   "status": "partial",
   "theorems": [
    "Verif.McCrystal.C324_mosaic_partial",
    "Verif.McCrystal.C324_iso",
    "Verif.McCrystal.C324_rms_false",
    "Verif.McCrystal.C324_zero_false"
   ],
   "note": "False of the code: the widths are documented as RMS and used as full widths at half maximum (lines 86-93, 464, 477, 489; `C324_rms_false`); a row 0 0 0 gives something that is not a number (`C324_zero_false`). Negation proved with a witness; the _partial theorem states what remains."
  },
  {
   "property": "C325",
   "status": "partial",
   "theorems": [
    "Verif.McCrystal.C325_turn",
    "Verif.McCrystal.C325_kind",
    "Verif.McCrystal.C325_even",
    "Verif.McCrystal.C325_zero_false",
    "Verif.McCrystal.C325_order_false"
   ],
   "note": "False of the code: with p_transmit = 0 the transmitted neutrons are lost (lines 819-836; `C325_zero_false`); with order = 1 a neutron leaves from the point of scattering without attenuation on the way out (line 903; `C325_order_false`). Negation proved with a witness; the _partial theorem states what remains."
  },
  {
   "property": "C326",
   "status": "partial",
   "theorems": [
    "Verif.McCrystal.C326_section",
    "Verif.McCrystal.C326_choice",
    "Verif.McCrystal.C326_elastic_partial",
    "Verif.McCrystal.C326_energy_false",
    "Verif.McCrystal.C326_powder_false",
    "Verif.McCrystal.C326_sorted_false"
   ],
   "note": "False of the code: K2V and V2K are not inverse to each other, so that the speed changes in each diffraction (`C326_energy_false`); in the powder mode the outgoing velocity does not depend on the incoming direction (lines 702-707; `C326_powder_false`); a table that is not sorted by length is cut at the first long vector (line 726; `C326_sorted_false`). Negation proved with a witness; the _partial theorem states what remains."
  },
  {
   "property": "C327",
   "status": "proved",
   "theorems": [
    "Verif.McTaper.C327_ellipse",
    "Verif.McTaper.C327_plane",
    "Verif.McTaper.C327_joined"
   ],
   "note": ""
  },
  {
   "property": "C328",
   "status": "proved",
   "theorems": [
    "Verif.McTaper.C328_parabola",
    "Verif.McTaper.C328_directrix",
    "Verif.McTaper.C328_two"
   ],
   "note": ""
  },
  {
   "property": "C329",
   "status": "partial",
   "theorems": [
    "Verif.McTaper.C329_partial",
    "Verif.McTaper.C329_end_false",
    "Verif.McTaper.C329_room_false",
    "Verif.McTaper.C329_bend",
    "Verif.McTaper.C329_bend_false"
   ],
   "note": "False of the code: `feof` is only true after a last line with an end has been followed by another attempt to read, and the count is reduced by one in any case: a last line without an end is lost (lines 247-257; `C329_end_false`); the arrays have segno entries whatever the file holds (lines 139-150; `C329_room_false`); the angle between segments is l/curvature/segno also if the file has another number of segments (line 466; `C329_bend_false`). Negation proved with a witness; the _partial theorem states what remains."
  },
  {
   "property": "C330",
   "status": "partial",
   "theorems": [
    "Verif.McTaper.C330_partial",
    "Verif.McTaper.C330_speed",
    "Verif.McTaper.C330_curve_false"
   ],
   "note": "False of the code: the velocity is turned where the neutron is behind its last reflection, not at the end of the segment (lines 610-621): in any curved guide neutrons that touch no wall are stopped (`C330_curve_false`). Negation proved with a witness; the _partial theorem states what remains."
  },
  {
   "property": "C331",
   "status": "partial",
   "theorems": [
    "Verif.Builder.C331_partial",
    "Verif.Builder.C331_quote_false",
    "Verif.Builder.C331_directory_false"
   ],
   "note": ""
  },
  {
   "property": "C332",
   "status": "partial",
   "theorems": [
    "Verif.Builder.C332_partial",
    "Verif.Builder.C332_false"
   ],
   "note": ""
  },
  {
   "property": "C333",
   "status": "partial",
   "theorems": [
    "Verif.Builder.C333_partial",
    "Verif.Builder.C333_false"
   ],
   "note": ""
  },
  {
   "property": "C334",
   "status": "partial",
   "theorems": [
    "Verif.Builder.C334_partial",
    "Verif.Builder.C334_empty_false",
    "Verif.Builder.C334_name_false",
    "Verif.Builder.C334_facility_false"
   ],
   "note": ""
  },
  {
   "property": "C335",
   "status": "proved",
   "theorems": [
    "Verif.RegCmp.C335_report"
   ],
   "note": ""
  },
  {
   "property": "C336",
   "status": "partial",
   "theorems": [
    "Verif.RegCmp.C336_same",
    "Verif.RegCmp.C336_partial",
    "Verif.RegCmp.C336_name_false",
    "Verif.RegCmp.C336_none_false",
    "Verif.RegCmp.C336_empty_false"
   ],
   "note": ""
  },
  {
   "property": "C337",
   "status": "partial",
   "theorems": [
    "Verif.CppClass.C337_partial",
    "Verif.CppClass.C337_words_false",
    "Verif.CppClass.C337_star_false",
    "Verif.CppClass.C337_comment_false",
    "Verif.CppClass.C337_tab_false"
   ],
   "note": ""
  },
  {
   "property": "C338",
   "status": "partial",
   "theorems": [
    "Verif.CppClass.C338_partial",
    "Verif.CppClass.C338_false"
   ],
   "note": ""
  },
  {
   "property": "C339",
   "status": "partial",
   "theorems": [
    "Verif.CppClass.C339_partial",
    "Verif.CppClass.C339_false"
   ],
   "note": ""
  },
  {
   "property": "C340",
   "status": "partial",
   "theorems": [
    "Verif.FactoryPy.C340_partial",
    "Verif.FactoryPy.C340_backslash_false",
    "Verif.FactoryPy.C340_quote_false",
    "Verif.FactoryPy.C340_nested_false",
    "Verif.FactoryPy.C340_object_false",
    "Verif.FactoryPy.C340_none_false"
   ],
   "note": ""
  },
  {
   "property": "C341",
   "status": "partial",
   "theorems": [
    "Verif.FactoryPy.C341_partial",
    "Verif.FactoryPy.C341_refused",
    "Verif.FactoryPy.C341_component_false",
    "Verif.FactoryPy.C341_lambda_false",
    "Verif.FactoryPy.C341_name_false"
   ],
   "note": ""
  },
  {
   "property": "C342",
   "status": "partial",
   "theorems": [
    "Verif.StsSource.C342_face",
    "Verif.StsSource.C342_partial",
    "Verif.StsSource.C342_whole",
    "Verif.StsSource.C342_sizes",
    "Verif.StsSource.C342_edges_false"
   ],
   "note": ""
  },
  {
   "property": "C343",
   "status": "proved",
   "theorems": [
    "Verif.StsSource.C343_disk"
   ],
   "note": ""
  },
  {
   "property": "C344",
   "status": "partial",
   "theorems": [
    "Verif.StsSource.C344_partial",
    "Verif.StsSource.C344_speed",
    "Verif.StsSource.C344_tilt_false"
   ],
   "note": ""
  },
  {
   "property": "C345",
   "status": "partial",
   "theorems": [
    "Verif.StsSource.C345_partial",
    "Verif.StsSource.C345_false",
    "Verif.StsSource.C345_scale"
   ],
   "note": ""
  },
  {
   "property": "C346",
   "status": "partial",
   "theorems": [
    "Verif.Elementary.C346_partial",
    "Verif.Elementary.C346_types",
    "Verif.Elementary.C346_arg_false",
    "Verif.Elementary.C346_pinv_false"
   ],
   "note": ""
  },
  {
   "property": "C347",
   "status": "partial",
   "theorems": [
    "Verif.Elementary.C347_partial",
    "Verif.Elementary.C347_arg",
    "Verif.Elementary.C347_name_false"
   ],
   "note": ""
  },
  {
   "property": "C348",
   "status": "proved",
   "theorems": [
    "Verif.Listing.C348_list",
    "Verif.Listing.C348_unknown"
   ],
   "note": ""
  },
  {
   "property": "C349",
   "status": "partial",
   "theorems": [
    "Verif.Listing.C349_partial",
    "Verif.Listing.C349_categories",
    "Verif.Listing.C349_false"
   ],
   "note": ""
  },
  {
   "property": "C350",
   "status": "partial",
   "theorems": [
    "Verif.Listing.C350_args",
    "Verif.Listing.C350_specifier",
    "Verif.Listing.C350_partial",
    "Verif.Listing.C350_two_false",
    "Verif.Listing.C350_slash_false"
   ],
   "note": ""
  },
  {
   "property": "C351",
   "status": "partial",
   "theorems": [
    "Verif.DetMerge.C351_partial",
    "Verif.DetMerge.C351_mismatch",
    "Verif.DetMerge.C351_space_false",
    "Verif.DetMerge.C351_overwrite_false"
   ],
   "note": ""
  },
  {
   "property": "C352",
   "status": "partial",
   "theorems": [
    "Verif.PyBuf.C352_partial",
    "Verif.PyBuf.C352_numbers",
    "Verif.PyBuf.C352_self_false",
    "Verif.PyBuf.C352_range_false"
   ],
   "note": ""
  },
  {
   "property": "C353",
   "status": "partial",
   "theorems": [
    "Verif.PyBuf.C353_partial",
    "Verif.PyBuf.C353_update",
    "Verif.PyBuf.C353_range_false",
    "Verif.PyBuf.C353_copy_false"
   ],
   "note": ""
  },
  {
   "property": "C354",
   "status": "partial",
   "theorems": [
    "Verif.PyBuf.C354_partial",
    "Verif.PyBuf.C354_refused",
    "Verif.PyBuf.C354_into",
    "Verif.PyBuf.C354_back",
    "Verif.PyBuf.C354_view_false"
   ],
   "note": ""
  },
  {
   "property": "C355",
   "status": "proved",
   "theorems": [
    "Verif.WrapCc.C355_wards",
    "Verif.WrapCc.C355_unknown",
    "Verif.WrapCc.C355_args"
   ],
   "note": ""
  },
  {
   "property": "C356",
   "status": "partial",
   "theorems": [
    "Verif.WrapCc.C356_partial",
    "Verif.WrapCc.C356_only",
    "Verif.WrapCc.C356_false"
   ],
   "note": ""
  },
  {
   "property": "C357",
   "status": "partial",
   "theorems": [
    "Verif.PyreGeo.C357_partial",
    "Verif.PyreGeo.C357_register_false",
    "Verif.PyreGeo.C357_transformer_false",
    "Verif.PyreGeo.C357_dump_false",
    "Verif.PyreGeo.C357_empty_false"
   ],
   "note": ""
  },
  {
   "property": "C358",
   "status": "partial",
   "theorems": [
    "Verif.PyreGeo.C358_partial",
    "Verif.PyreGeo.C358_unknown",
    "Verif.PyreGeo.C358_false"
   ],
   "note": ""
  },
  {
   "property": "C359",
   "status": "partial",
   "theorems": [
    "Verif.PyreGeo.C359_partial",
    "Verif.PyreGeo.C359_first",
    "Verif.PyreGeo.C359_false"
   ],
   "note": ""
  },
  {
   "property": "C360",
   "status": "partial",
   "theorems": [
    "Verif.Gather.C360_partial",
    "Verif.Gather.C360_false",
    "Verif.Gather.C360_other_false",
    "Verif.Gather.C360_stale_false"
   ],
   "note": ""
  },
  {
   "property": "C361",
   "status": "partial",
   "theorems": [
    "Verif.Gather.C361_partial",
    "Verif.Gather.C361_sub_false",
    "Verif.Gather.C361_absolute_false"
   ],
   "note": ""
  },
  {
   "property": "C362",
   "status": "partial",
   "theorems": [
    "Verif.Help.C362_partial",
    "Verif.Help.C362_before",
    "Verif.Help.C362_server_false"
   ],
   "note": ""
  },
  {
   "property": "C363",
   "status": "partial",
   "theorems": [
    "Verif.TewSave.C363_partial",
    "Verif.TewSave.C363_range_false",
    "Verif.TewSave.C363_area_false"
   ],
   "note": ""
  },
  {
   "property": "C364",
   "status": "partial",
   "theorems": [
    "Verif.CmakeSrc.C364_partial",
    "Verif.CmakeSrc.C364_again",
    "Verif.CmakeSrc.C364_false",
    "Verif.CmakeSrc.C364_comment_false"
   ],
   "note": ""
  },
  {
   "property": "C365",
   "status": "partial",
   "theorems": [
    "Verif.CmakeSrc.C365_partial",
    "Verif.CmakeSrc.C365_false"
   ],
   "note": ""
  },
  {
   "property": "C366",
   "status": "partial",
   "theorems": [
    "Verif.MonoConf.C366_partial",
    "Verif.MonoConf.C366_refused",
    "Verif.MonoConf.C366_false"
   ],
   "note": ""
  },
  {
   "property": "C367",
   "status": "partial",
   "theorems": [
    "Verif.RegDict.C367_partial",
    "Verif.RegDict.C367_false",
    "Verif.RegDict.C367_name_false"
   ],
   "note": ""
  },
  {
   "property": "C368",
   "status": "partial",
   "theorems": [
    "Verif.VitessRun.C368_partial",
    "Verif.VitessRun.C368_false",
    "Verif.VitessRun.C368_args_false"
   ],
   "note": ""
  }
 ]
}