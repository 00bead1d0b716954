# status, theorems, note for each property (source of MANIFEST.json)
H = "Verif.Hiid."; S = "Verif.Subs."; Q = "Verif.WPQueue."; D = "Verif.Disp."; E = "Verif.Events."; TE = "Verif.Tensor."; GW = "Verif.Gateway."; RT = "Verif.Route."; MQ = "Verif.MTQueue."; VM = "Verif.VisMux."; VN = "Verif.VisNodes."; TI = "Verif.Tiling."; SO = "Verif.Solver."; SL = "Verif.SolveLoop."; SW = "Verif.SolveWorkers."; CP = "Verif.Composed."; PM = "Verif.Parm."; FN = "Verif.FlagNodes."; RN = "Verif.ReqNodes."; CQ="Verif.Condeq."; MN = "Verif.MatNodes."; RD = "Verif.Riders."; NL = "Verif.NodeLock."; EX = "Verif.Execute."; TH = "Verif.Threads."; CL = "Verif.ChildCells."; AP = "Verif.AsyncPoll."; WS = "Verif.WSum."; AX = "Verif.AxisMap."; GC = "Verif.GwClient."; PC = "Verif.PyConv."; VT = "Verif.VTile."; CF = "Verif.Config."; NI = "Verif.NodeInit."; SD = "Verif.Symdeps."; DV = "Verif.DVec."; MR = "Verif.ModRes."; RS = "Verif.Resample."; PV = "Verif.Psv."; MW = "Verif.MpiWire."; MP = "Verif.Mpi."; SV = "Verif.Server."; MC = "Verif.MsChan."; MQ = "Verif.MsSeq."; EM = "Verif.EventMux."; CO = "Verif.Collect."; LO = "Verif.Locate."; PA = "Verif.Patch."; PL = "Verif.PolcLog."
R="Verif.CRef."; N="Verif.Names."; B="Verif.BlockSet."; T="Verif.Timestamp."; RC="Verif.Record."; DL="Verif.DList."; SE="Verif.Serial."; PK="Verif.Packer."; BO="Verif.Boio."; MS="Verif.Message."; RQ="Verif.RequestId."
NC="Verif.NodeCache."; FO="Verif.Forest."; BP="Verif.Breakpoint."; NU="Verif.Nursery."; MP="Verif.MTPool."
VE="Verif.Vells."
SL="Verif.Slicer."
CG="Verif.CellGrid."
FN="Verif.Func."
VS="Verif.VellSet."
PO="Verif.Polc."
NA="Verif.NumArray."
PT="Verif.ParmTable."
CLAIMS = {
"C01": ("proved", [H+"C01_matches_iff_overlap", H+"C01_matches_symm", H+"C01_matches_concrete", H+"C01_prefixedBy_concrete"],
  "The symmetry and language statements are unconditional."),
"C02": ("proved", [H+"C02_subsetOf_iff_inclusion", H+"C02_subsetOf_refl", H+"C02_subsetOf_trans", H+"C02_subsetOf_matches"], ""),
"C03": ("proved", [H+"C03_unpack_pack", H+"C03_pack_none_iff", H+"C03_unpack_ok_iff", H+"C03_pack_unpack"], ""),
"C04": ("proved", [H+"C04_lt_iff", H+"C04_lt_irrefl", H+"C04_lt_trans", H+"C04_lt_trichotomy"], ""),
"C05": ("proved", [H+"C05_popLeadIndex", H+"C05_popTrailIndex"], ""),
"C06": ("proved", [H+"C06_splitAtSlash", H+"C06_popLeadSlashes"], ""),
"C20": ("proved", [S+"C20_matches_iff_accepts"],
  "For every history of subscribe, unsubscribe, clear and merge."),
"C21": ("proved", [S+"C21_pack_unpack", S+"C21_pksize"],
  "For every history, for sets below 2^30 elements and 2^64 bytes (the code counts in int and size_t)."),
"C22": ("proved", [Q+"C22_queue_serves_pending", Q+"C22_dequeue_first", Q+"C22_dequeue_all", Q+"C22_search"], ""),
"C23": ("proved", [D+"C23_select_max", D+"C23_select_none"], ""),
"C24": ("proved", [D+"C24_addresses_unique", D+"C24_attached_distinct"], ""),
"C25": ("partial", [D+"C25_local_recipients_partial", D+"C25_send_effect", D+"C25_gateway_recipients", D+"C25_star_address_not_delivered"],
  "Proved for addresses without '*' in the class; false of the code with '*' (witness). The gateways' own forwarding decision is a parameter."),
"C26": ("partial", [E+"C26_inputs_partial", E+"C26_removeInput_all_false", E+"C26_removeTimeout", E+"C26_detachTimeouts", E+"C26_signals", E+"C26_removeSignal"],
  "Proved for timeouts, signals and for inputs named by descriptor; removing all inputs of a worker at once is false of the code (witness)."),
"C53": ("partial", [S+"C53_unpack_any_partial", S+"C53_unpack_corrupt_ub"],
  "False of the code when the size check wraps around (witness); proved when it cannot."),
"C54": ("proved", [Q+"C54_no_unseen_head"], ""),
"C55": ("partial", [Q+"C55_accept_removes_partial", Q+"C55_accepted_but_redelivered"],
  "False of the code when a handler lets a more urgent message in (witness); proved otherwise."),
"C56": ("proved", [E+"C56_due_timeouts_fire", E+"C56_registered"], ""),
"C57": ("proved", [D+"C57_ageing"], ""),
"C58": ("partial", [D+"C58_idle_means_no_work_partial", D+"C58_negative_priority_stalls"],
  "Proved for non-negative priorities; false of the code for negative ones (witness)."),
"C59": ("proved", [E+"C59_ready_inputs_reported"], "For histories of valid calls (removals name a descriptor)."),
"C51": ("partial", [H+"C51_subId_partial", H+"C51_subId_negative_ub"],
  "Proved for start positions inside the identifier; false of the code for negative positions (witness theorem)."),
"C52": ("partial", [H+"C52_pushFront_partial", H+"C52_pushFront_loses_tail"],
  "False of the code in general (witness theorem); proved for the cases that work."),
"C08": ("partial", [R+"C08_no_dangling", R+"C08_no_undefined", R+"C08_owned_lifetime_partial", R+"C08_privatize_leaks"],
  "No dangling reference, double deletion or wrong count in any history; leak-freedom is proved for histories without deep copies and without making an attached reference read-only, and is false of the code otherwise (witness)."),
"C09": ("proved", [R+"C09_isolation", R+"C09_write_visible", R+"C09_copy_reads_same", R+"C09_shared_only_on_request"], ""),
"C10": ("partial", [R+"C10_locked_destination", R+"C10_lock_flag", R+"C10_locked_source_partial", R+"C10_failed_xfer_detaches"],
  "Proved for a locked destination; transferring out of a locked reference fails but has already detached the destination (witness)."),
"C07": ("proved", [N+"C07_find_by_id", N+"C07_conflict", N+"C07_name_stable", N+"C07_round_trip", N+"C07_index_round_trip", N+"C07_case_collision"],
  "C07_case_collision shows that the case-insensitive reading of the proviso is needed."),
"C60": ("partial", [N+"C60_text_round_trip_partial", N+"C60_empty_component"],
  "Proved for components with a faithful text; false of the code for empty components (witness)."),
"C11": ("partial", [B+"C11_block_sets_are_queues_partial", B+"C11_fifo", B+"C11_cursor_reads", B+"C11_flush_keeps_unread", B+"C11_flush_keeps_size"],
  "Proved without flushing; after flushToCursor the reported size is wrong (witness)."),
"C16": ("proved", [T+"C16_add", T+"C16_sub", T+"C16_unique", T+"C16_compare", T+"C16_add_sub_cancel", T+"C16_print"],
  "Seconds are unbounded integers in the model."),
"C12": ("proved", [RC+"C12_record_is_finite_map", RC+"C12_get", RC+"C12_last_value"], "For all histories including merges, protection changes and fields read from blocks."),
"C13": ("proved", [RC+"C13_merge_union", RC+"C13_merge_protected", RC+"C13_merge_atomic_refuted"],
  "A merge that fails on a protected field has already taken over other fields (witness); the property does not promise otherwise."),
"C14": ("partial", [DL+"C14_list_partial", DL+"C14_history", DL+"C14_remove_returns", DL+"C14_negative_get", DL+"C14_list_refuted"],
  "All editing calls at all positions are proved; reading at negative positions or from an empty list is wrong in the code (witness and general theorem)."),
"C15": ("proved", [SE+"C15_round_trip", SE+"C15_sequence"], "Over any other classes whose own conversion round-trips; protection flags are not written by the code and are left out."),
"C61": ("partial", [RC+"C61_removed_value_partial", RC+"C61_removed_value_refuted"], "False of the code for attached objects (witness)."),
"C62": ("partial", [RC+"C62_access_partial", RC+"C62_by_number_refuted"], "False of the code for numbers of existing fields: an iterator is used uninitialised (witness)."),
"C63": ("partial", [DL+"C63_append_partial", DL+"C63_append_self_diverges", DL+"C63_append_self_refuted"], "False of the code when a list is appended to itself."),
"C64": ("partial", [SE+"C64_list_partial", SE+"C64_corrupt_blocks_refuted", SE+"C64_negative_idsize"], "False of the code (witnesses); proved for lists whose items are readable."),
"C17": ("proved", [PK+"C17_pack_size", PK+"C17_round_trip", PK+"C17_tiny_block"], "For blocks of at least 8 bytes; in a smaller block the count is written out of bounds before the size is checked (C17_tiny_block)."),
"C18": ("partial", [PK+"C18_fixed_values_partial", PK+"C18_unpack_pack", PK+"C18_variable_values_fail", PK+"C18_packSize_wrong", PK+"C18_refuted"], "False of the code for values of variable size (general theorem and witness); proved for fixed-size values."),
"C65": ("partial", [PK+"C65_variable_partial", PK+"C65_wrong_length", PK+"C65_refuted"], "False of the code for fixed-size elements (witness)."),
"C19": ("proved", [BO+"C19_object_files", BO+"C19_append", BO+"C19_returned_size"], "Over any classes whose own conversion round-trips to non-empty blocks."),
"C66": ("partial", [BO+"C66_rewind_partial", BO+"C66_refuted"], "False of the code once the end of file has been seen (witness)."),
"C67": ("partial", [BO+"C67_failed_write_partial", BO+"C67_when", BO+"C67_refuted"], "Earlier objects are safe; later ones are lost (witness)."),
"C27": ("proved", [MS+"C27_round_trip", MS+"C27_injective"], "Latency statistics (not compiled in) are left out."),
"C68": ("partial", [MS+"C68_no_undefined_partial", MS+"C68_refuted", MS+"C68_sizes_cancel"], "False of the code (witnesses); proved for headers with non-negative sizes."),
"C28": ("partial", [RQ+"C28_diffMask_partial", RQ+"C28_diffMask", RQ+"C28_maskedCompare", RQ+"C28_null_id", RQ+"C28_agree", RQ+"C28_maskSubId", RQ+"C28_refuted"], "Exact for the first 16 components, hence for all ids of up to 16 components; false beyond (witness). Empty ids compare unequal under any non-empty mask (C28_null_id)."),
"C29": ("proved", [RQ+"C29_setSubId", RQ+"C29_incrSubId", RQ+"C29_diff", RQ+"C29_negative_mask"], "For masks without the sign bit; with it the functions do not return (C29_negative_mask)."),
"C30": ("partial", [RQ+"C30_active_mask_partial", RQ+"C30_maskOf", RQ+"C30_refuted"], "False of the code after a load that fails half-way (witness)."),
"C69": ("partial", [RQ+"C69_new_id_partial", RQ+"C69_refuted"], "False of the code when dependencies share bits (witness); proved for disjoint masks."),
"C31": ("partial", [NC+"C31_transparent_partial", NC+"C31_mask_covers", NC+"C31_fresh_depends_on_mask", NC+"C31_policy", NC+"C31_refuted", NC+"C31_refuted_type"], "Proved for requests without failing riders and nodes that do not ignore the request type; false of the code otherwise (witnesses)."),
"C32": ("partial", [FO+"C32_in_order_partial", FO+"C32_ub_only_beyond", FO+"C32_create", FO+"C32_create_fails", FO+"C32_create_succeeds", FO+"C32_remove", FO+"C32_refuted"], "All histories; the one index equal to the table size is read past the end (witness)."),
"C33": ("proved", [BP+"C33_flags", BP+"C33_stops_iff", BP+"C33_single_shot", BP+"C33_single_shot_once", BP+"C33_global_single_shot", BP+"C33_persistent", BP+"C33_masks"], "For all histories of node and forest breakpoints."),
"C34": ("partial", [NU+"C34_after_success_partial", NU+"C34_all_succeed", NU+"C34_succeeds_iff", NU+"C34_refuted"], "Proved after every successful request; false of the code after a rejected one (witness)."),
"C35": ("proved", [NU+"C35_polled", NU+"C35_code", NU+"C35_code_bits", NU+"C35_fails", NU+"C35_retcodes", NU+"C35_once", NU+"C35_all"], "Single-threaded poll; the multithreaded one is C70."),
"C70": ("partial", [NU+"C70_never_hangs_partial", NU+"C70_terminates", NU+"C70_result", NU+"C70_same_as_single", NU+"C70_refuted"], "Every schedule, when no child's outcome ends the poll early; under the abandon policy the poll can hang (witness)."),
"C36": ("proved", [MP+"C36_exactly_once", MP+"C36_at_most_once", MP+"C36_newest_first", MP+"C36_cancel", MP+"C36_limit", MP+"C36_idle", MP+"C36_undefined", MP+"C36_refused", MP+"C36_join_refuted"], "For the pool as the server sets it up. C36_join_refuted: threads joining later can make the counters' table too short."),
"C37": ("proved", [VE+"C37_comm", VE+"C37_assoc", VE+"C37_idem", VE+"C37_fails_iff", VE+"C37_least", VE+"C37_congruent"], "All shapes."),
"C71": ("partial", [VE+"C71_partial", VE+"C71_refuted"], "False when the first shape has more axes than the second (witness): the check of the rank is commented out."),
"C38": ("proved", [VE+"C38_binary", VE+"C38_in_place", VE+"C38_add", VE+"C38_mul", VE+"C38_replace_flagged", VE+"C38_flagged"], "For every operation on elements, all shapes without empty axes."),
"C39": ("partial", [VE+"C39_nelements_partial", VE+"C39_mean_partial", VE+"C39_sum_partial", VE+"C39_product_partial", VE+"C39_refuted"], "The count of elements is right in general; the mean is right in general; sum and product when the flags do not vary along axes where the data are constant, and false otherwise (witness)."),
"C72": ("partial", [VE+"C72_max_partial", VE+"C72_min_partial", VE+"C72_refuted"], "The maximum is wrong for arrays all of whose values are below the smallest positive double (witness)."),
"C40": ("proved", [SL+"C40_slices", SL+"C40_cover", SL+"C40_flags", SL+"C40_duplicate"], "For distinct axes. Naming an axis twice is undefined behaviour (C40_duplicate)."),
"C41": ("proved", [CG+"C41_refl", CG+"C41_trans", CG+"C41_antisymm", CG+"C41_envelope", CG+"C41_expand", CG+"C41_define"], "Over rational coordinates."),
"C73": ("partial", [CG+"C73_superset", CG+"C73_envelope_partial", CG+"C73_refuted"], "The test is right; the envelope passes it when both domains have the same axes, and false otherwise (witness)."),
"C42": ("partial", [CG+"C42_partition_partial", CG+"C42_drift", CG+"C42_refuted"], "Partition, maximality and step-by-step regularity proved; steps that drift slowly are one segment although the first and the last differ (witness)."),
"C43": ("partial", [CG+"C43_integrate", CG+"C43_upsample", CG+"C43_up_down", CG+"C43_down_up", CG+"C43_count", CG+"C43_fails", CG+"C43_cover_partial", CG+"C43_axes", CG+"C43_refuted"], "Integration by a number that is not a divisor drops the last cells (witness); everything else is proved."),
"C44": ("partial", [CG+"C44_eq_partial", CG+"C44_refl_symm", CG+"C44_refuted", CG+"C44_compare_refuted"], "Proved for operator == on proper Cells; compare ignores the grids and is wrong for empty Cells (witnesses)."),
"C74": ("proved", [CG+"C74_superset"], "For proper Cells."),
"C75": ("partial", [CG+"C75_noop_partial", CG+"C75_refuted"], "Equal only to Cells of the maximum rank (equivalence and witness)."),
"C76": ("proved", [CG+"C76_regular"], ""),
"C45": ("proved", [FN+"C45_union", FN+"C45_order"], "For ids that are non-negative and strictly increasing in each child."),
"C77": ("partial", [FN+"C77_values", FN+"C77_succeeds", FN+"C77_defined_partial", FN+"C77_refuted"], "For children with the same number of perturbation sets; with different numbers the code reads past the end (witness)."),
"C78": ("partial", [FN+"C78_plane", FN+"C78_planes", FN+"C78_runs", FN+"C78_code_sound", FN+"C78_code_partial", FN+"C78_refuted"], "All but the exact meaning of the return code, which is proved when no plane of a child is a failure; otherwise failed planes may be reported as missing data (witness)."),
"C49": ("partial", [VS+"C49_covers_partial", VS+"C49_set", VS+"C49_merge_partial", VS+"C49_refuted"], "The shape covers all parts after any history, and is their merge while no part is replaced or removed; a replaced part leaves its extents behind (witness)."),
"C50": ("partial", [VS+"C50_last_partial", VS+"C50_refuted"], "False of the code: adding a failure removes the earlier ones (witness); only the last addition is reported."),
"C79": ("partial", [VS+"C79_fail_partial", VS+"C79_refuted"], "False for weights: the pointer to them dangles (witness); proved for all other parts."),
"C46": ("proved", [PO+"C46_numbering", PO+"C46_default", PO+"C46_given", PO+"C46_update", PO+"C46_bounds", PO+"C46_const", PO+"C46_index"], "Over rational numbers."),
"C47": ("proved", [PO+"C47_transform", PO+"C47_zero_scale"], "Over rational numbers and exact binomial coefficients, for new scales that are not 0 (with a scale of 0 the call stops halfway: C47_zero_scale)."),
"C80": ("partial", [PO+"C80_value_partial", PO+"C80_refuted"], "False with perturbations and more than 10 coefficients in the second variable, where a table overflows (witness)."),
"C81": ("partial", [PO+"C81_solve_partial", PO+"C81_refuted"], "False for a polynomial with one axis, where an offset that does not exist is read (witness)."),
"C82": ("partial", [PO+"C82_shape_partial", PO+"C82_value", PO+"C82_refuted", PO+"C82_fewer"], "Proved when the number of axes stays the same and for constants; false when it changes (witnesses)."),
"C83": ("partial", [PO+"C83_dropped", PO+"C83_value_partial", PO+"C83_refuted"], "False without a mask: the coefficients outside the default selection are set to 0 (witness)."),
"C48": ("partial", [PT+"C48_returned", PT+"C48_stored", PT+"C48_other", PT+"C48_kept", PT+"C48_deleted", PT+"C48_lookup", PT+"C48_domains", PT+"C48_full_partial", PT+"C48_refuted", PT+"C48_replaced_partial", PT+"C48_replaced_refuted"], "The store is proved for every history; the perturbation and weight of a constant polynomial are lost (witness), and a domain within the tolerance of two others may get either number, so that the old funklet is not replaced (witness)."),
"C84": ("partial", [PT+"C84_restart", PT+"C84_crash", PT+"C84_resume_partial", PT+"C84_refuted"], "False when a crash leaves part of an entry: what is added afterwards cannot be read (witness)."),
"C85": ("proved", [PT+"C85_injective", PT+"C85_decompose"], "Reading back works exactly for names without zero bytes."),
"C86": ("partial", [PT+"C86_roundtrip", PT+"C86_truncated_partial", PT+"C86_refuted"], "False for a record cut to its first 8 bytes, which is taken for a constant (witness)."),
"C87": ("partial", [NA+"C87_element", NA+"C87_rejects", NA+"C87_slice_partial", NA+"C87_witnesses", NA+"C87_refuted"], "Proved for selections on all axes with ends on the axis and steps that divide; otherwise false (witnesses)."),
"C88": ("partial", [NA+"C88_roundtrip", NA+"C88_longer", NA+"C88_truncated_partial", NA+"C88_refuted", NA+"C88_sound_refuted"], "The round trip is proved; blocks that end within the extents are read past their end, and negative extents are accepted (witnesses)."),
"C89": ("partial", [NA+"C89_values", NA+"C89_slice_witnesses", NA+"C89_refuted"], "Proved for every history of whole arrays; false for arrays that are part of another one (witnesses)."),
"C90": ("proved", [GW+"C90_in_order", GW+"C90_delivered", GW+"C90_complete", GW+"C90_messages", GW+"C90_limit"], "For messages with no block above 512 MB (see C90_limit)."),
"C91": ("partial", [GW+"C91_partial", GW+"C91_hang", GW+"C91_refuted"], "Proved for junk without the letter 'o'; a header that begins with 'o' and is not a data header stops the reader for ever (witness)."),
"C92": ("partial", [GW+"C92_partial", GW+"C92_refuted"], "Proved if unpacking leaves no blocks behind; blocks that are left make the reader drop the next message (witness)."),
"C93": ("partial", [RT+"C93_no_loss", RT+"C93_partial", RT+"C93_refuted"], "Nothing is held back for any destination; the equivalence holds without '*' and is false with it (witness)."),
"C94": ("partial", [RT+"C94_partial", RT+"C94_first_message", RT+"C94_refuted"], "Proved if workers do not change their subscriptions while they stop; otherwise an entry for a worker that is gone stays (witness)."),
"C95": ("partial", [RT+"C95_partial", RT+"C95_everybody", RT+"C95_refuted"], "Proved for messages that are not for a gateway itself; a message to everybody goes round and reaches a worker any number of times (witness)."),
"C96": ("partial", [RT+"C96_partial", RT+"C96_gateways", RT+"C96_subscribe", RT+"C96_refuted"], "Proved for publish with a message and for subscriptions; publish with an id ignores the scope (witness)."),
"C97": ("partial", [RT+"C97_partial", RT+"C97_refuted"], "Proved for messages that are not for a gateway itself, in any network; false for a message to everybody (witness)."),
"C98": ("partial", [TE+"C98_append_partial", TE+"C98_shape_partial", TE+"C98_tensor_partial", TE+"C98_tensorCode_partial", TE+"C98_mismatch", TE+"C98_refuted", TE+"C98_refuted_fail", TE+"C98_refuted_size"], "Planes are proved; the return code is wrong in tensor mode with scalars or empty children, and results can have more planes than their dimensions say (witnesses)."),
"C99": ("partial", [TE+"C99_slice_partial", TE+"C99_iff", TE+"C99_multi", TE+"C99_refuses", TE+"C99_code", TE+"C99_refuted", TE+"C99_refuted_slice"], "True if and only if no more than the last sliced axis has an extent above 1 (C99_iff); false otherwise (witness)."),
"C100": ("partial", [TE+"C100_slice_partial", TE+"C100_roundtrip_partial", TE+"C100_multi", TE+"C100_misfit", TE+"C99_refuses", TE+"C100_refuted"], "As C99; pasting two sliced axes overwrites and adds other planes (witness)."),
"C101": ("partial", [TE+"C101_product", TE+"C101_chain", TE+"C101_failures", TE+"C101_refuses", TE+"C101_refuted"], "Products are proved over any commutative ring; zero times a tensor is a scalar, and hides the tensor's failures (witness)."),
"C102": ("partial", [TE+"C102_offset", TE+"C102_sent_partial", TE+"C102_inconsistent", TE+"C102_refuted"], "Proved but for a single plane made with two or more axes (witness)."),
"C103": ("partial", [MQ+"C103_order_partial", MQ+"C103_open_partial", MQ+"C103_flushed_partial", MQ+"C103_refuted"], "Order and at-most-once always hold; everything arrives if nothing is queued when the channel is closed; closing with events queued loses them (witness)."),
"C104": ("proved", [MQ+"C104_fetched"], ""),
"C105": ("proved", [MQ+"C105_sizes"], ""),
"C106": ("proved", [MQ+"C106_errors", MQ+"C106_first"], "See C107 for closing with an error on the list, which does not return."),
"C107": ("partial", [MQ+"C107_open_partial", MQ+"C107_post_partial", MQ+"C107_wait_partial", MQ+"C107_close_partial", MQ+"C107_refuted", MQ+"C107_wait_hangs", MQ+"C107_close_hangs", MQ+"C107_close_stuck", MQ+"C107_post_stuck"], "Proved while the channel behind stays open, and for closing a flushed channel without errors; otherwise calls hang (four witnesses)."),
"C108": ("partial", [VM+"C108_data_ids", VM+"C108_no_ub_partial", VM+"C108_no_ub_refuted", VM+"C108_negative_antenna"], "Numbering proved outright; no access outside the tables for any sequence of events whose tiles have antennas and a row with a time; false for a tile whose rows all have time 0 and for a negative antenna (witnesses)."),
"C109": ("partial", [VM+"C109_dataset_partial", VM+"C109_snippets", VM+"C109_sinks", VM+"C109_requests_refuted", VM+"C109_rows_refuted"], "Proved for data sets whose tiles are as they should be, whatever the calls do; with a tile no cells can be made of, tiles get the request of the snippet before, and all tiles get the rows of the first (witnesses)."),
"C110": ("partial", [VM+"C110_node_sees_partial", VM+"C110_next_stream_partial", VM+"C110_attached", VM+"C110_refuted"], "Proved if every header announces the baseline; a data set with fewer stations detaches nodes for good (witness)."),
"C111": ("partial", [VM+"C111_form_partial", VM+"C111_written", VM+"C111_form_refuted", VM+"C111_bad_header"], "What is written is proved outright; the form holds but for a footer without a header when nothing was written (witness) and for headers that lack fields (witness)."),
"C112": ("partial", [VM+"C112_success_partial", VM+"C112_failure", VM+"C112_datasets", VM+"C112_refuted"], "Proved without a limit on the number of snippets; with one, errors of the last snippet are lost (witness). The other direction is proved with any limit."),
"C113": ("partial", [VM+"C113_limit_partial", VM+"C113_refuted"], "The number of snippets is proved; a data set cut short ends without a footer for the nodes (witness)."),
"C114": ("partial", [VN+"C114_partial", VN+"C114_flagged", VN+"C114_noMask", VN+"C114_outcome", VN+"C114_uvw", VN+"C114_off_partial", VN+"C114_refuted", VN+"C114_off_refuted"], "Proved with a flag mask; without one only the first time slot gets its row's flags (witness), and missing rows are flagged although the documentation says that there are no flags (witness). Columns without correlations are not modelled."),
"C115": ("partial", [VN+"C115_match", VN+"C115_snippets_partial", VN+"C115_late", VN+"C115_kept", VN+"C115_refuted", VN+"C115_tiles_refuted"], "Proved for snippets in order; a request for something else empties the queue, and the second tile of a snippet is never used (witnesses)."),
"C116": ("partial", [VN+"C116_frame", VN+"C116_values", VN+"C116_flags_partial", VN+"C116_flags_kept", VN+"C116_attached", VN+"C116_succeeds", VN+"C116_scalar", VN+"C116_flags_refuted", VN+"C116_two_refuted", VN+"C116_other_ub"], "Frame and values proved outright; flags are dropped if the rows are part of the tile or the plane is zero (witnesses). Columns without correlations are not modelled."),
"C117": ("partial", [VN+"C117_copy", VN+"C117_flags", VN+"C117_rowflags_refuted"], "Values are copied for any rows; flags stay as they were if none are masked; row flags do not reach the tile if the rows are part of it (witness)."),
"C118": ("proved", [TI+"C118_tile_of_cell", TI+"C118_tile_unique"], ""),
"C119": ("partial", [SO+"C119_partial", SO+"C119_whole_tiles", SO+"C119_refuted"], "Proved if all axes are defined, no tile is larger than the grid and tile sizes can be compared; with an axis that is not defined there is a division by zero (witness)."),
"C120": ("partial", [SO+"C120_partial", SO+"C120_refuted"], "Proved under the same conditions; one parameter tiled in time and another in frequency get the same tiles (witness)."),
"C121": ("partial", [SO+"C121_partial", SO+"C121_unknown", SO+"C121_refuted"], "Proved under the conditions of C119; without them setting up may fail (witness)."),
"C122": ("partial", [SO+"C122_partial", SO+"C122_refuted"], "Proved for parameters with the same tile sizes; otherwise equations are put on the wrong tile's unknown (witness)."),
"C123": ("partial", [SO+"C123_partial", SO+"C123_one_axis", SO+"C123_refuted"], "Proved if tiles come in the order of their solver tiles, so whenever only one axis is tiled; with two axes updates are exchanged (witness)."),
"C124": ("partial", [SO+"C124_partial", SO+"C124_slot", SO+"C124_rank", SO+"C124_refuted"], "Proved for up to 256 solvable coefficients a parameter; with more, entries of the next node are lost (witness)."),
"C125": ("proved", [SL+"C125_requests", SL+"C125_iterations"], "What the children reply, the fits and the flags are arbitrary; evaluations of children are atomic."),
"C126": ("partial", [SL+"C126_each", SL+"C126_delivered_partial", SL+"C126_without_last", SL+"C126_refuted"], "Proved unless an interrupt is seen in an iteration without equations, when the last update is sent twice (witness)."),
"C127": ("partial", [SL+"C127_result", SL+"C127_converged_partial", SL+"C127_refuted"], "What converged means is proved exactly; as documented only if there are equations for all subsolvers: those without count as converged (witness)."),
"C128": ("partial", [SL+"C128_no_result_partial", SL+"C128_no_update", SL+"C128_in_turn", SL+"C128_runs", SL+"C128_refuted"], "No result and no update are proved; the code is that for an abort unless the flag is raised during the last fits (witness)."),
"C129": ("partial", [SL+"C129_ignored_partial", SL+"C129_discovery_partial", SL+"C129_refuted"], "Failures in iterations are ignored (witness)."),
"C130": ("partial", [SL+"C130_partial", SL+"C130_not_asked", SL+"C130_refuted", SL+"C130_interrupt_not_saved"], "Proved with last_update, equations in all iterations and no late interrupt; without last_update nothing is saved (witness)."),
"C131": ("proved", [SW+"C131_same", SW+"C131_single", SW+"C131_exclusive", SW+"C131_alone"], "At least one worker (the threads are used only then). Mutexes and condition variables are taken to behave as POSIX says."),
"C132": ("proved", [SW+"C132_exceptions", SW+"C132_subsolvers"], "Exceptions other than std::exception are not modelled."),
"C133": ("proved", [SW+"C133_no_deadlock", SW+"C133_bounded", SW+"C133_returns", SW+"C133_stop"], ""),
"C134": ("proved", [CP+"C134_tiles"], ""),
"C135": ("partial", [CP+"C135_composed_partial", CP+"C135_refuted"], "Proved if no part ends before the first centre and parts with the same range along an axis have the whole grid in it; otherwise false (witness)."),
"C136": ("proved", [CP+"C136_tiled_value", CP+"C136_init"], "Order and preparation for cells wider than the tolerance of 1e-16. Forced shapes are left out."),
"C137": ("partial", [CP+"C137_copy_partial", CP+"C137_refuted"], "Proved for cells one part is for; elsewhere the default is lost (witness)."),
"C138": ("partial", [PM+"C138_start_partial", PM+"C138_determined", PM+"C138_cleared", PM+"C138_refuted"], "Proved unless the parameter goes on with what it has; it also does that for a new domain inside the one it has a funklet for (witness)."),
"C139": ("proved", [PM+"C139_no_memory"], "Parameters that are given a funklet through their state are left out."),
"C140": ("partial", [PM+"C140_updates_partial", PM+"C140_once", PM+"C140_refused", PM+"C140_refuted"], "Which updates count is proved exactly; one after another command of the same request is lost (witness)."),
"C141": ("partial", [PM+"C141_reload_partial", PM+"C141_refuted"], "Proved if no other entry overlaps; otherwise a solvable parameter gets the first of them (witness)."),
"C142": ("partial", [PM+"C142_not_saved_partial", PM+"C142_saved", PM+"C142_decision", PM+"C142_refuted"], "When the table is written is proved exactly; the flag of convergence is never lowered, so later solutions are saved whether they converged or not (witness)."),
"C143": ("partial", [PM+"C143_saved_domain_partial", PM+"C143_refuted"], "Proved unless a funklet of a larger domain is still being solved for: then its entry is overwritten (witness)."),
"C144": ("proved", [FN+"C144_function", FN+"C144_tensor"], ""),
"C145": ("partial", [FN+"C145_several", FN+"C145_single", FN+"C145_partial", FN+"C145_refuted"], "What is merged is proved exactly; no bits are lost with several children or a full mask. A single child loses its bits outside the mask (witness)."),
"C146": ("partial", [FN+"C146_node", FN+"C146_partial", FN+"C146_refuted"], "The flags after are described exactly; flags set before are replaced, not ORed (witness)."),
"C147": ("partial", [FN+"C147_decision", FN+"C147_axes", FN+"C147_partial", FN+"C147_refuted", FN+"C147_refuted_outside"], "Proved for masks with bit 0 and flags within the mask; otherwise false (witnesses). The slices along axes are those of C40."),
"C148": ("partial", [FN+"C148_partial", FN+"C148_refuted"], "Proved up to 30 children; beyond, a shift overflows (witness)."),
"C149": ("partial", [FN+"C149_partial", FN+"C149_refuted"], "Proved if the flags broadcast to the value; otherwise an exception (witness)."),
"C150": ("partial", [FN+"C150_partial", FN+"C150_refuted"], "Main values stay and derivatives go; the flags of an element with derivatives go too (witness)."),
"C151": ("partial", [RN+"C151_decision", RN+"C151_chosen_partial", RN+"C151_collect", RN+"C151_refuted"], "The answer is decided outright; if the chosen child fails there is no result at all (witness)."),
"C152": ("proved", [RN+"C152_others"], ""),
"C153": ("proved", [RN+"C153_calls", RN+"C153_all", RN+"C153_distinct"], "Waits and aborts are not modelled."),
"C154": ("partial", [RN+"C154_chosen_partial", RN+"C154_no_cells", RN+"C154_stop", RN+"C154_stop_missing", RN+"C154_cells_only", RN+"C154_sequence_mode", RN+"C154_refuted"], "Proved for requests with cells; without, failures and dependencies of the children are dropped (witness)."),
"C155": ("partial", [RN+"C155_cache_partial", RN+"C155_refuted"], "Proved for histories of requests with cells (smart policy, one parent, one request type); a request without cells poisons the cache (witness)."),
"C156": ("partial", [RN+"C156_disabled_partial", RN+"C156_sequence", RN+"C156_refuted"], "A sequencer executes disabled children (witness); a multiplexer does not."),
"C157": ("proved", [CQ+"C157_equation", CQ+"C157_law"], "Numbers are rational; steps of 0 are excluded from the law."),
"C158": ("proved", [CQ+"C158_modulo", CQ+"C158_complex"], ""),
"C159": ("proved", [CQ+"C159_element", CQ+"C157_equation"], ""),
"C160": ("partial", [CQ+"C160_null_partial", CQ+"C160_refuted"], "Elements without a value are proved; a failed element becomes one without a value and the failure is lost (witness)."),
"C161": ("partial", [CQ+"C161_missing_partial", CQ+"C161_mismatch", CQ+"C161_refuted"], "Proved if the first child has a result; if not, there is an exception (witness)."),
"C162": ("proved", [MN+"C162_values", MN+"C162_succeeds", MN+"C162_missing"], "Flags and cells are left out; the function is taken to fill all elements of its output."),
"C163": ("proved", [MN+"C163_inverse", MN+"C163_scalar", MN+"C163_scalar_failed", MN+"C163_refuses", MN+"C163_failures"], "Values in a field; determinants other than zero. Of several failures one is kept (see C78)."),
"C164": ("partial", [MN+"C164_transposes_partial", MN+"C164_vectors", MN+"C164_twice_partial", MN+"C164_conjugate", MN+"C164_dropped", MN+"C164_refuted"], "Proved unless the last but one axis has extent 1: then that axis is dropped (witness)."),
"C165": ("partial", [MN+"C165_matrix_partial", MN+"C165_unpolarised", MN+"C165_error", MN+"C165_refuted"], "Proved with the exact condition for an exception; Q without a value next to U is one (witness). Derivatives and flags are dropped by the code."),
"C166": ("partial", [RD+"C166_commands", RD+"C166_none", RD+"C166_listed_partial", RD+"C166_refuted"], "Which commands are performed is proved exactly; an entry with an empty list of names is for every node (witness)."),
"C167": ("partial", [RD+"C167_all", RD+"C167_index", RD+"C167_adds", RD+"C167_new_group", RD+"C167_list_throws", RD+"C167_refuted"], "Proved for commands to all and by index; a list of entries is stored in the wrong field and makes nodes throw (witness)."),
"C168": ("proved", [NL+"C168_one_executes", NL+"C168_cache_and_state", NL+"C168_flag"], "One node; what the body of an execution does is abstracted to giving the state mutex up and taking it again. The mutexes are the recursive ones of the code, held as a whole."),
"C169": ("proved", [NL+"C169_no_deadlock", NL+"C169_ends", NL+"C169_finishes"], "One node; evaluating and being stopped are taken to end."),
"C170": ("partial", [NL+"C170_status_partial", NL+"C170_refuted"], "Proved if there is no cache or if the calls do not overlap; false for overlapping calls, which hold different mutexes (witness)."),
"C171": ("partial", [EX+"C171_result", EX+"C171_stored", EX+"C171_exception", EX+"C171_calls", EX+"C171_evaluates", EX+"C171_aborts", EX+"C171_missing", EX+"C171_no_exception_partial", EX+"C171_refuted"], "All proved except that no exception leaves: if caching a failure throws too, one does, out of a function declared to throw none (witness)."),
"C172": ("partial", [EX+"C172_status_partial", EX+"C172_missing_is_ok", EX+"C172_refuted"], "Proved unless the abort flag is up at once or the node itself finds data missing (witnesses)."),
"C173": ("partial", [EX+"C173_posted_partial", EX+"C173_refuted"], "Proved for exceptions; failures returned by an evaluation are not posted (witness)."),
"C174": ("partial", [TH+"C174_partial", TH+"C174_locks", TH+"C174_waits", TH+"C174_release", TH+"C174_moves", TH+"C174_refuted"], "Proved without TRY; with it an object claims a mutex another thread holds (witness). Assignment from an empty object, which dereferences a null pointer, is left out."),
"C175": ("partial", [TH+"C175_partial", TH+"C175_refuted"], "Proved exactly when it holds: if the fractions of a second come to less than a second; otherwise the wait ends at once (witness). Rounding of the double is left out."),
"C176": ("proved", [TH+"C176", TH+"C176_read", TH+"C176_write", TH+"C176_upgrade", TH+"C176_back", TH+"C176_downgrade"], "Threads give back what they have and upgrade what they have; the functions are steps from call to return or sleep, as they hold a mutex."),
"C177": ("partial", [TH+"C177_partial", TH+"C177_refuted", TH+"C177_refuted_readers"], "Proved: nobody sleeps at a lock that nobody has, unless a thread is awake in a call. False in general: the code signals one thread, and only when the count of readers reaches zero (two witnesses)."),
"C178": ("partial", [CL+"C178_partial", CL+"C178_axes", CL+"C178_accepts", CL+"C178_refuses", CL+"C178_off", CL+"C178_refuted"], "Proved for the first child with cells, for all whose cells are another object, and if all share one. A child that shares the first one's cells object is not compared and its axes are not noted, so another child's may replace them (witness). Centres and sizes of cells are left out."),
"C179": ("proved", [CL+"C179", CL+"C179_known"], "Maps as functions from parameter numbers."),
"C180": ("partial", [AP+"C180_partial", AP+"C180_no_abort_partial", AP+"C180_starts_settled", AP+"C180_sleeps_safely", AP+"C180_sleeps_safely_no_abort", AP+"C180_completes", AP+"C180_orders", AP+"C180_start", AP+"C180_refuses", AP+"C180_single", AP+"C180_single_count", AP+"C180_stale", AP+"C180_refuted"], "Proved for schedules in which no poll is started while orders of an earlier one are left, in particular if polls are never aborted. False otherwise: a worker still filling an order of an aborted poll drops its result into the next one (witness). Only this node's work orders are modelled."),
"C181": ("partial", [AP+"C181_partial", AP+"C181_completes", AP+"C181_orders_partial", AP+"C181_orders_refuted", AP+"C181_unwaited", AP+"C181_refuted"], "Proved if no poll of the nursery was ever aborted and, for who is polled, for the default poll order. False after an abort: the flag that ends the wait is never taken down again (witness)."),
"C182": ("partial", [WS+"C182_partial", WS+"C182_fails", WS+"C182_zero_weight", WS+"C182_refuted"], "Proved if no child has weight zero; with several weights of which one is zero or left out the node always fails (proved, witness). Exact arithmetic, one cell."),
"C183": ("partial", [WS+"C183_partial", WS+"C183_plain", WS+"C183_cancel", WS+"C183_fails", WS+"C183_refuted"], "Proved if no child has weight zero; fails otherwise, as C182. Exact arithmetic, one cell."),
"C184": ("partial", [AX+"C184_partial", AX+"C184_setVec", AX+"C184_setIter", AX+"C184_setRecords", AX+"C184_accepts", AX+"C184_add", AX+"C184_reset", AX+"C184_stale", AX+"C184_refuted"], "Proved if axes are only added to the default ones; for a map that is set, proved for the axes it names. False in general: names that a map replaces stay known, and axes it leaves out keep theirs (witness)."),
"C185": ("partial", [AX+"C185_partial", AX+"C185_swapped", AX+"C185_halfway", AX+"C185_refuted"], "Proved if the sender's names are different and either not the default ones, or understood by the receiver. False otherwise (witness): default names are not sent along. Exact arithmetic."),
"C186": ("partial", [AX+"C186_partial", AX+"C186_refuses", AX+"C186_refuted"], "Proved for records without fields called by a number above 7. False otherwise: the range is written behind the end of an array (witness)."),
"C187": ("proved", [GC+"C187", GC+"C187_what"], "The decision for an advertisement; that advertisements arrive is not modelled."),
"C188": ("partial", [GC+"C188_partial", GC+"C188_given_up", GC+"C188_refuted"], "Proved for clients that do not look for servers, or hear of none. False otherwise: a connection that is given up is removed while the list is gone through (witness). stop() is not modelled."),
"C189": ("partial", [GC+"C189_partial", GC+"C189_retries", GC+"C189_tries_within_two", GC+"C189_times_out", GC+"C189_connected", GC+"C189_outcome", GC+"C189_bye", GC+"C189_advert", GC+"C189_advert_early", GC+"C189_bindError", GC+"C189_bindError_net", GC+"C189_once", GC+"C189_duplicate", GC+"C189_forgotten", GC+"C189_refuted"], "That a configured peer stays on the list is proved without advertisements, and false with them (witness): one makes it a peer that is given up. That peers on the list are tried again, and what comes of it, is proved for all histories."),
"C190": ("proved", [GC+"C190", GC+"C190_stops"], "For all histories without stop()."),
"C191": ("partial", [PC+"C191_partial", PC+"C191_wide_int", PC+"C191_huge_int", PC+"C191_lone_bool", PC+"C191_nul", PC+"C191_mixed_rows", PC+"C191_none_hiid", PC+"C191_list_list", PC+"C191_unsupported", PC+"C191_byte_order", PC+"C191_one_element", PC+"C191_refuted"], "Proved for plain values of any depth (32-bit integers, no NUL, native byte order, restrictions on nested sequences). False otherwise, with a theorem for each kind of failure. Floating point numbers are names of values."),
"C192": ("partial", [PC+"C192_partial", PC+"C192_back", PC+"C192_refuted"], "Proved: fields do not affect each other, in either direction. False that every field arrives: one that cannot be converted is dropped (witness)."),
"C193": ("partial", [PC+"C193_partial", PC+"C193_back", PC+"C193_no_sender", PC+"C193_pending", PC+"C193_refuted"], "Proved if a sender is set whenever an addressee is. A message with an addressee alone cannot be converted (proved)."),
"C194": ("partial", [PC+"C194_partial", PC+"C194_float", PC+"C194_long", PC+"C194_refuted"], "Proved for stable values of any depth. False otherwise (witnesses): scalars of other types than int, double and double complex change type, and long integers are cut."),
"C195": ("partial", [VT+"C195_partial", VT+"C195_readable_partial"], "Proved for histories in which copy, setTileId and wcolumn are applied only to tiles that do not share their memory. Tiles without rows but with columns are undefined behaviour (C197_new_empty)."),
"C196": ("partial", [VT+"C196_partial", VT+"C196_completes", VT+"C196_column_partial", VT+"C196_stray_write", VT+"C196_refuted"], "Proved for the histories of C195. False otherwise: after copy, setTileId or wcolumn on a tile that shares its memory, its arrays still refer to the memory of the other tile (witness)."),
"C197": ("partial", [VT+"C197_partial", VT+"C197_copy_equal", VT+"C197_copy_completes", VT+"C197_empty_copy", VT+"C197_new", VT+"C197_new_completes", VT+"C197_new_empty", VT+"C197_refuted"], "Proved for the histories of C195, whatever is shared; false otherwise (witness). A tile without rows cannot be copied, and making one with columns is undefined behaviour (proved)."),
"C198": ("partial", [VT+"C198_partial", VT+"C198_sends", VT+"C198_refuted"], "Proved for the histories of C195; false otherwise (witness). Blocks are passed on by reference, as within one process."),
"C199": ("partial", [VT+"C199_partial", VT+"C199_whole_partial", VT+"C199_completes", VT+"C199_refuses", VT+"C199_start_unchecked", VT+"C199_other_start_unchecked", VT+"C199_refuted"], "Proved for columns of one element per cell, and for whole tiles with any columns. False for rows of array columns: bytes are copied as if a row's elements were together (witness). Two starts are not checked (witnesses)."),
"C200": ("partial", [VT+"C200_partial", VT+"C200_completes", VT+"C200_identifier", VT+"C200_dropped", VT+"C200_refuted"], "Proved for columns of one element per cell; false for array columns, whose elements are out of order after rows have been added (witness)."),
"C201": ("partial", [VT+"C201_partial", VT+"C201_refuted"], "Proved if columns whose shape stays keep their type. False otherwise: the old column's bytes are copied over the new one, and beyond its end if the new elements are smaller (witness)."),
"C202": ("partial", [CF+"C202_partial", CF+"C202_integer", CF+"C202_long", CF+"C202_blank", CF+"C202_leading", CF+"C202_newline", CF+"C202_comment", CF+"C202_refuted"], "Proved for names without blanks not starting with '#', one-line values not starting with white space, and at most 1022 bytes of both. False otherwise (witnesses)."),
"C203": ("partial", [CF+"C203_partial", CF+"C203_load", CF+"C203_set", CF+"C203_keep", CF+"C203_merge_partial", CF+"C203_merge_refuted", CF+"C203_refuted"], "Proved if lines of files are at most 1023 bytes long and without zero bytes; longer lines are read as several (witness). Merging one configuration into another with override does not override (proved)."),
"C204": ("proved", [CF+"C204", CF+"C204_prefix", CF+"C204_value_taken"], "Stated as the code decides: an argument that starts with the option counts. So an option is also found in a longer one, and in the value of another (witnesses)."),
"C205": ("partial", [NI+"C205_partial", NI+"C205_refuted"], "Proved if no two fields of the record mean the same child; otherwise the last one is taken silently (witness). Of a class only the arguments of the constructor are modelled."),
"C206": ("partial", [NI+"C206_partial", NI+"C206_accepts", NI+"C206_again", NI+"C206_refuted"], "Proved for a batch on an empty forest. A further batch initialises all nodes again and always ends in errors if there is a node with a child or stepchild (C206_again)."),
"C207": ("partial", [NI+"C207_partial", NI+"C207_refused", NI+"C207_refuted"], "Proved if the batch has a result. A reference to the index just beyond the last node reads beyond the end of the table (witness)."),
"C208": ("partial", [SD+"C208_partial", SD+"C208_map", SD+"C208_both", SD+"C208_mask_lost", SD+"C208_python_lost", SD+"C208_python_empty", SD+"C208_refuted"], "Proved where the definition does not have both dependencies and a mask, lists from Python are not empty, and records are refused only while the node's dependencies are those of its record and no mask was given. False otherwise (witnesses)."),
"C209": ("partial", [DV+"C209_partial", DV+"C209_refuted", DV+"C209_refuted_scalar"], "Proved for all sequences of operations that make no vectors of size 0 and do not resize scalars to size 1. False of the code otherwise (witnesses)."),
"C210": ("partial", [MR+"C210_partial", MR+"C210_none", MR+"C210_refuted", MR+"C210_single", MR+"C210_axes"], "Proved for all histories in which earlier requests had at least as many cells as are to be joined. False otherwise (witness); other axes are lost; a single number of cells is undefined."),
"C211": ("partial", [RS+"C211_partial", RS+"C211_refuted", RS+"C211_counts", RS+"C211_split"], "Proved for all cells and values if the numbers of cells differ, one old cell is not divided and the values are not constant. False in the other cases (witnesses; dividing one cell is undefined for all cells and values)."),
"C212": ("partial", [RS+"C212_partial", RS+"C212_refuted", RS+"C212_single"], "Proved for all cells, values, flags and policies, with old cells that end where the new one starts counted as well. False without them (witness); flags of values with one row or column are ignored (witness)."),
"C213": ("proved", [PV+"C213_main", PV+"C213_disagree"], "For all children of the documented dimensions, all numbers of sources and of pairs of Jones terms, over any commutative ring and for any exponent, smearing and shape functions."),
"C214": ("partial", [PV+"C214_partial", PV+"C214_refuted", PV+"C214_uvw", PV+"C214_order", PV+"C214_brightness"], "Proved for every parameter that does not change uvw, does not change brightness when there are no Jones terms, and is not preceded by one that changes an earlier product. False in each of these three cases (witnesses)."),
"C215": ("partial", [PV+"C215_partial", PV+"C215_three", PV+"C215_refuted"], "False: with three children the node always fails. Proved for a child of one element in place of the shapes."),
"C216": ("partial", [MW+"C216_main", MW+"C216_header", MW+"C216_truncated", MW+"C216_partial", MW+"C216_refuted"], "Round trip, size of the buffer and refusal of truncated messages hold for all headers and objects. That no malformed message is read past its end is false for sizes of 2^31 and more (witness), and proved for those below."),
"C217": ("proved", [MP+"C217_main"], "For any number of processes and all histories of calls, thread steps and outcomes of nodes."),
"C218": ("partial", [MP+"C218_partial", MP+"C218_ends", MP+"C218_errors", MP+"C218_shown", MP+"C218_refuted", MP+"C218_refuted_unknown"], "False for processCommand and for calls that fail in a communicator thread, e.g. for unknown nodes (witnesses). Proved for all others; all reports of errors arrive."),
"C219": ("partial", [MP+"C219_main", MP+"C219_refuted"], "Proved for setState, for all histories in which the calls are for existing nodes and do not throw. False for the other commands without a reply, which the receiver ignores (witness)."),
"C220": ("partial", [SV+"C220_replies_partial", SV+"C220_order", SV+"C220_once", SV+"C220_direct", SV+"C220_queue", SV+"C220_other", SV+"C220_next", SV+"C220_refuted"], "For all histories of well-formed events and all schedules of the two threads. False for commands that wait when the server is halted: they get no reply (witness)."),
"C221": ("partial", [SV+"C221_survives_partial", SV+"C221_refuted", SV+"C221_refuted_types"], "Proved for well-formed events. False for the event Command without a name, and for records with fields of a wrong type (witnesses)."),
"C222": ("proved", [SV+"C222_state"], "For all histories of well-formed events and all schedules."),
"C223": ("partial", [SV+"C223_abort_partial", SV+"C223_no_leak", SV+"C223_refuted"], "Proved once the execution has cleared the flag at its start, and that old requests do not leak into it. False for a request between the announcement of the execution and the clearing (witness)."),
"C224": ("partial", [SV+"C224_unchanged_partial", SV+"C224_list", SV+"C224_refuted"], "Proved when no change falls between the copy of the list and the reading of its number, and for fewer than 2^31 - 2 changes. False otherwise (witness)."),
"C225": ("partial", [MC+"C225_rows", MC+"C225_once", MC+"C225_found_partial", MC+"C225_slot_partial", MC+"C225_tiles", MC+"C225_served_partial", MC+"C225_empty", MC+"C225_refuted", MC+"C225_incr"], "Soundness, uniqueness and shape for all sets and selections; completeness when all timeslots are read, for rows that are the only ones of their baseline and time. False for duplicates (witness); with an increment of time reading can fail (witness)."),
"C226": ("partial", [MC+"C226_pieces_partial", MC+"C226_opened_partial", MC+"C226_refuted", MC+"C226_unsorted"], "Proved for wanted rows in order of time and all timeslots read; no write outside of memory when two rows share a time. False for one row per tile (witness) and for tables not in order (witness)."),
"C227": ("partial", [MC+"C227_range_partial", MC+"C227_given", MC+"C227_ends", MC+"C227_refuted", MC+"C227_before"], "Proved unless a limit is the number of channels, or the last one lies before the first channel; false there (witnesses)."),
"C228": ("proved", [MC+"C228_write", MC+"C228_same"], "For all tables, tiles and ranges of channels within the data, in either order."),
"C229": ("partial", [MC+"C229_flagged_partial", MC+"C229_row", MC+"C229_bits", MC+"C229_legacy", MC+"C229_kept", MC+"C229_read", MC+"C229_refuted"], "For all masks and flags. False when BITFLAG is used but not written: flags of cells do not get to FLAG (witness)."),
"C230": ("partial", [MQ+"C230_same_partial", MQ+"C230_write_partial", MQ+"C230_read_partial", MQ+"C230_refuted", MQ+"C230_outside"], "Proved when tiles of another number have later rows of the table, so for tables in order of time. False otherwise: rows of earlier tiles are written again with other data (witness), or from a tile that does not exist (witness)."),
"C231": ("proved", [EM+"C231_get", EM+"C231_once", EM+"C231_order", EM+"C231_stopped"], "For all channels, arrivals at any place of the queue and histories of getEvent without hasEvent (see C232)."),
"C232": ("partial", [EM+"C232_answer", EM+"C232_kept_partial", EM+"C232_refuted", EM+"C232_stale"], "The answer of hasEvent is right, and nothing is lost unless it has found an event. If it has, the event is taken from the queue and lost (witness); a new message at the same address is then lost as well (witness)."),
"C233": ("partial", [EM+"C233_bound_partial", EM+"C233_explicit", EM+"C233_prefix", EM+"C233_received", EM+"C233_refuted"], "Ids for all maps and events, and their way back through a channel with the same prefix. An event disabled in the map is said to be bound although it is not posted (witness)."),
"C234": ("partial", [EM+"C234_order", EM+"C234_given", EM+"C234_mask_partial", EM+"C234_refuted"], "Order and completeness for all files and masks. The mask is ignored for an event that has just been read from the file (witness)."),
"C235": ("proved", [CO+"C235_last", CO+"C235_suffix", CO+"C235_limit"], "For all histories of results, commands and limits."),
"C236": ("proved", [CO+"C236_entries", CO+"C236_aligned"], "For all results of children."),
"C237": ("proved", [CO+"C237_joined", CO+"C237_fails", CO+"C237_checked", CO+"C237_collected"], "For all plot records of children, with and without labels and attributes."),
"C238": ("proved", [CO+"C238_raised", CO+"C238_source", CO+"C238_sources"], "For all histories of calls, one at a time; waiting itself is not modelled."),
"C239": ("proved", [LO+"C239_pieces", LO+"C239_joined", LO+"C239_count"], "For all strings and separators."),
"C240": ("proved", [LO+"C240_centers", LO+"C240_shape"], "For all cells and axes."),
"C241": ("partial", [LO+"C241_located_partial", LO+"C241_refuted", LO+"C241_five"], "Proved along the axes of the child's value, if it has one to four. False for the other axes of the cells, where no location is set (witness), and for values with more than four axes."),
"C242": ("partial", [PA+"C242_inside_partial", PA+"C242_refuted"], "Proved if some source has l other than 0 and some source has m other than 0. Otherwise the spacing of pixels is 0 and a NaN is converted to an integer (witness)."),
"C243": ("partial", [PA+"C243_shown_partial", PA+"C243_only", PA+"C243_refuted"], "A source further than a pixel from the others is shown with its own value, and nothing else is shown. Of sources in the same pixel only the last is shown, so the sum is wrong (witness)."),
"C244": ("partial", [PL+"C244_log_partial", PL+"C244_refuted", PL+"C244_scales"], "Proved for grids between their first and last coordinate, with a list of scales. Other grids may have negative coordinates whose logarithm is taken (witness); without a list of scales an uninitialized scale is used."),
"C245": ("partial", [PL+"C245_ends_partial", PL+"C245_refuted"], "Proved if logarithms can be taken at the ends of all axes with a scale. If not, the other axis gets a wrong offset and scale (witness)."),
}
