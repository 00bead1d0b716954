{
 "claims": [
  {
   "property": "C01",
   "status": "proved",
   "theorems": [
    "Verif.Hiid.C01_matches_iff_overlap",
    "Verif.Hiid.C01_matches_symm",
    "Verif.Hiid.C01_matches_concrete",
    "Verif.Hiid.C01_prefixedBy_concrete"
   ],
   "note": "The symmetry and language statements are unconditional."
  },
  {
   "property": "C02",
   "status": "proved",
   "theorems": [
    "Verif.Hiid.C02_subsetOf_iff_inclusion",
    "Verif.Hiid.C02_subsetOf_refl",
    "Verif.Hiid.C02_subsetOf_trans",
    "Verif.Hiid.C02_subsetOf_matches"
   ],
   "note": ""
  },
  {
   "property": "C03",
   "status": "proved",
   "theorems": [
    "Verif.Hiid.C03_unpack_pack",
    "Verif.Hiid.C03_pack_none_iff",
    "Verif.Hiid.C03_unpack_ok_iff",
    "Verif.Hiid.C03_pack_unpack"
   ],
   "note": ""
  },
  {
   "property": "C04",
   "status": "proved",
   "theorems": [
    "Verif.Hiid.C04_lt_iff",
    "Verif.Hiid.C04_lt_irrefl",
    "Verif.Hiid.C04_lt_trans",
    "Verif.Hiid.C04_lt_trichotomy"
   ],
   "note": ""
  },
  {
   "property": "C05",
   "status": "proved",
   "theorems": [
    "Verif.Hiid.C05_popLeadIndex",
    "Verif.Hiid.C05_popTrailIndex"
   ],
   "note": ""
  },
  {
   "property": "C06",
   "status": "proved",
   "theorems": [
    "Verif.Hiid.C06_splitAtSlash",
    "Verif.Hiid.C06_popLeadSlashes"
   ],
   "note": ""
  },
  {
   "property": "C07",
   "status": "proved",
   "theorems": [
    "Verif.Names.C07_find_by_id",
    "Verif.Names.C07_conflict",
    "Verif.Names.C07_name_stable",
    "Verif.Names.C07_round_trip",
    "Verif.Names.C07_index_round_trip",
    "Verif.Names.C07_case_collision"
   ],
   "note": "C07_case_collision shows that the case-insensitive reading of the proviso is needed."
  },
  {
   "property": "C08",
   "status": "partial",
   "theorems": [
    "Verif.CRef.C08_no_dangling",
    "Verif.CRef.C08_no_undefined",
    "Verif.CRef.C08_owned_lifetime_partial",
    "Verif.CRef.C08_privatize_leaks"
   ],
   "note": "No dangling reference, double deletion or wrong count in any history; leak-freedom is proved for histories without deep copies and without making an attached reference read-only, and is false of the code otherwise (witness)."
  },
  {
   "property": "C09",
   "status": "proved",
   "theorems": [
    "Verif.CRef.C09_isolation",
    "Verif.CRef.C09_write_visible",
    "Verif.CRef.C09_copy_reads_same",
    "Verif.CRef.C09_shared_only_on_request"
   ],
   "note": ""
  },
  {
   "property": "C10",
   "status": "partial",
   "theorems": [
    "Verif.CRef.C10_locked_destination",
    "Verif.CRef.C10_lock_flag",
    "Verif.CRef.C10_locked_source_partial",
    "Verif.CRef.C10_failed_xfer_detaches"
   ],
   "note": "Proved for a locked destination; transferring out of a locked reference fails but has already detached the destination (witness)."
  },
  {
   "property": "C11",
   "status": "partial",
   "theorems": [
    "Verif.BlockSet.C11_block_sets_are_queues_partial",
    "Verif.BlockSet.C11_fifo",
    "Verif.BlockSet.C11_cursor_reads",
    "Verif.BlockSet.C11_flush_keeps_unread",
    "Verif.BlockSet.C11_flush_keeps_size"
   ],
   "note": "Proved without flushing; after flushToCursor the reported size is wrong (witness)."
  },
  {
   "property": "C12",
   "status": "proved",
   "theorems": [
    "Verif.Record.C12_record_is_finite_map",
    "Verif.Record.C12_get",
    "Verif.Record.C12_last_value"
   ],
   "note": "For all histories including merges, protection changes and fields read from blocks."
  },
  {
   "property": "C13",
   "status": "proved",
   "theorems": [
    "Verif.Record.C13_merge_union",
    "Verif.Record.C13_merge_protected",
    "Verif.Record.C13_merge_atomic_refuted"
   ],
   "note": "A merge that fails on a protected field has already taken over other fields (witness); the property does not promise otherwise."
  },
  {
   "property": "C14",
   "status": "partial",
   "theorems": [
    "Verif.DList.C14_list_partial",
    "Verif.DList.C14_history",
    "Verif.DList.C14_remove_returns",
    "Verif.DList.C14_negative_get",
    "Verif.DList.C14_list_refuted"
   ],
   "note": "All editing calls at all positions are proved; reading at negative positions or from an empty list is wrong in the code (witness and general theorem)."
  },
  {
   "property": "C15",
   "status": "proved",
   "theorems": [
    "Verif.Serial.C15_round_trip",
    "Verif.Serial.C15_sequence"
   ],
   "note": "Over any other classes whose own conversion round-trips; protection flags are not written by the code and are left out."
  },
  {
   "property": "C16",
   "status": "proved",
   "theorems": [
    "Verif.Timestamp.C16_add",
    "Verif.Timestamp.C16_sub",
    "Verif.Timestamp.C16_unique",
    "Verif.Timestamp.C16_compare",
    "Verif.Timestamp.C16_add_sub_cancel",
    "Verif.Timestamp.C16_print"
   ],
   "note": "Seconds are unbounded integers in the model."
  },
  {
   "property": "C17",
   "status": "proved",
   "theorems": [
    "Verif.Packer.C17_pack_size",
    "Verif.Packer.C17_round_trip",
    "Verif.Packer.C17_tiny_block"
   ],
   "note": "For blocks of at least 8 bytes; in a smaller block the count is written out of bounds before the size is checked (C17_tiny_block)."
  },
  {
   "property": "C18",
   "status": "partial",
   "theorems": [
    "Verif.Packer.C18_fixed_values_partial",
    "Verif.Packer.C18_unpack_pack",
    "Verif.Packer.C18_variable_values_fail",
    "Verif.Packer.C18_packSize_wrong",
    "Verif.Packer.C18_refuted"
   ],
   "note": "False of the code for values of variable size (general theorem and witness); proved for fixed-size values."
  },
  {
   "property": "C19",
   "status": "proved",
   "theorems": [
    "Verif.Boio.C19_object_files",
    "Verif.Boio.C19_append",
    "Verif.Boio.C19_returned_size"
   ],
   "note": "Over any classes whose own conversion round-trips to non-empty blocks."
  },
  {
   "property": "C20",
   "status": "proved",
   "theorems": [
    "Verif.Subs.C20_matches_iff_accepts"
   ],
   "note": "For every history of subscribe, unsubscribe, clear and merge."
  },
  {
   "property": "C21",
   "status": "proved",
   "theorems": [
    "Verif.Subs.C21_pack_unpack",
    "Verif.Subs.C21_pksize"
   ],
   "note": "For every history, for sets below 2^30 elements and 2^64 bytes (the code counts in int and size_t)."
  },
  {
   "property": "C22",
   "status": "proved",
   "theorems": [
    "Verif.WPQueue.C22_queue_serves_pending",
    "Verif.WPQueue.C22_dequeue_first",
    "Verif.WPQueue.C22_dequeue_all",
    "Verif.WPQueue.C22_search"
   ],
   "note": ""
  },
  {
   "property": "C23",
   "status": "proved",
   "theorems": [
    "Verif.Disp.C23_select_max",
    "Verif.Disp.C23_select_none"
   ],
   "note": ""
  },
  {
   "property": "C24",
   "status": "proved",
   "theorems": [
    "Verif.Disp.C24_addresses_unique",
    "Verif.Disp.C24_attached_distinct"
   ],
   "note": ""
  },
  {
   "property": "C25",
   "status": "partial",
   "theorems": [
    "Verif.Disp.C25_local_recipients_partial",
    "Verif.Disp.C25_send_effect",
    "Verif.Disp.C25_gateway_recipients",
    "Verif.Disp.C25_star_address_not_delivered"
   ],
   "note": "Proved for addresses without '*' in the class; false of the code with '*' (witness). The gateways' own forwarding decision is a parameter."
  },
  {
   "property": "C26",
   "status": "partial",
   "theorems": [
    "Verif.Events.C26_inputs_partial",
    "Verif.Events.C26_removeInput_all_false",
    "Verif.Events.C26_removeTimeout",
    "Verif.Events.C26_detachTimeouts",
    "Verif.Events.C26_signals",
    "Verif.Events.C26_removeSignal"
   ],
   "note": "Proved for timeouts, signals and for inputs named by descriptor; removing all inputs of a worker at once is false of the code (witness)."
  },
  {
   "property": "C27",
   "status": "proved",
   "theorems": [
    "Verif.Message.C27_round_trip",
    "Verif.Message.C27_injective"
   ],
   "note": "Latency statistics (not compiled in) are left out."
  },
  {
   "property": "C28",
   "status": "partial",
   "theorems": [
    "Verif.RequestId.C28_diffMask_partial",
    "Verif.RequestId.C28_diffMask",
    "Verif.RequestId.C28_maskedCompare",
    "Verif.RequestId.C28_null_id",
    "Verif.RequestId.C28_agree",
    "Verif.RequestId.C28_maskSubId",
    "Verif.RequestId.C28_refuted"
   ],
   "note": "Exact for the first 16 components, hence for all ids of up to 16 components; false beyond (witness). Empty ids compare unequal under any non-empty mask (C28_null_id)."
  },
  {
   "property": "C29",
   "status": "proved",
   "theorems": [
    "Verif.RequestId.C29_setSubId",
    "Verif.RequestId.C29_incrSubId",
    "Verif.RequestId.C29_diff",
    "Verif.RequestId.C29_negative_mask"
   ],
   "note": "For masks without the sign bit; with it the functions do not return (C29_negative_mask)."
  },
  {
   "property": "C30",
   "status": "partial",
   "theorems": [
    "Verif.RequestId.C30_active_mask_partial",
    "Verif.RequestId.C30_maskOf",
    "Verif.RequestId.C30_refuted"
   ],
   "note": "False of the code after a load that fails half-way (witness)."
  },
  {
   "property": "C31",
   "status": "partial",
   "theorems": [
    "Verif.NodeCache.C31_transparent_partial",
    "Verif.NodeCache.C31_mask_covers",
    "Verif.NodeCache.C31_fresh_depends_on_mask",
    "Verif.NodeCache.C31_policy",
    "Verif.NodeCache.C31_refuted",
    "Verif.NodeCache.C31_refuted_type"
   ],
   "note": "Proved for requests without failing riders and nodes that do not ignore the request type; false of the code otherwise (witnesses)."
  },
  {
   "property": "C32",
   "status": "partial",
   "theorems": [
    "Verif.Forest.C32_in_order_partial",
    "Verif.Forest.C32_ub_only_beyond",
    "Verif.Forest.C32_create",
    "Verif.Forest.C32_create_fails",
    "Verif.Forest.C32_create_succeeds",
    "Verif.Forest.C32_remove",
    "Verif.Forest.C32_refuted"
   ],
   "note": "All histories; the one index equal to the table size is read past the end (witness)."
  },
  {
   "property": "C33",
   "status": "proved",
   "theorems": [
    "Verif.Breakpoint.C33_flags",
    "Verif.Breakpoint.C33_stops_iff",
    "Verif.Breakpoint.C33_single_shot",
    "Verif.Breakpoint.C33_single_shot_once",
    "Verif.Breakpoint.C33_global_single_shot",
    "Verif.Breakpoint.C33_persistent",
    "Verif.Breakpoint.C33_masks"
   ],
   "note": "For all histories of node and forest breakpoints."
  },
  {
   "property": "C34",
   "status": "partial",
   "theorems": [
    "Verif.Nursery.C34_after_success_partial",
    "Verif.Nursery.C34_all_succeed",
    "Verif.Nursery.C34_succeeds_iff",
    "Verif.Nursery.C34_refuted"
   ],
   "note": "Proved after every successful request; false of the code after a rejected one (witness)."
  },
  {
   "property": "C35",
   "status": "proved",
   "theorems": [
    "Verif.Nursery.C35_polled",
    "Verif.Nursery.C35_code",
    "Verif.Nursery.C35_code_bits",
    "Verif.Nursery.C35_fails",
    "Verif.Nursery.C35_retcodes",
    "Verif.Nursery.C35_once",
    "Verif.Nursery.C35_all"
   ],
   "note": "Single-threaded poll; the multithreaded one is C70."
  },
  {
   "property": "C36",
   "status": "proved",
   "theorems": [
    "Verif.MTPool.C36_exactly_once",
    "Verif.MTPool.C36_at_most_once",
    "Verif.MTPool.C36_newest_first",
    "Verif.MTPool.C36_cancel",
    "Verif.MTPool.C36_limit",
    "Verif.MTPool.C36_idle",
    "Verif.MTPool.C36_undefined",
    "Verif.MTPool.C36_refused",
    "Verif.MTPool.C36_join_refuted"
   ],
   "note": "For the pool as the server sets it up. C36_join_refuted: threads joining later can make the counters' table too short."
  },
  {
   "property": "C37",
   "status": "proved",
   "theorems": [
    "Verif.Vells.C37_comm",
    "Verif.Vells.C37_assoc",
    "Verif.Vells.C37_idem",
    "Verif.Vells.C37_fails_iff",
    "Verif.Vells.C37_least",
    "Verif.Vells.C37_congruent"
   ],
   "note": "All shapes."
  },
  {
   "property": "C38",
   "status": "proved",
   "theorems": [
    "Verif.Vells.C38_binary",
    "Verif.Vells.C38_in_place",
    "Verif.Vells.C38_add",
    "Verif.Vells.C38_mul",
    "Verif.Vells.C38_replace_flagged",
    "Verif.Vells.C38_flagged"
   ],
   "note": "For every operation on elements, all shapes without empty axes."
  },
  {
   "property": "C39",
   "status": "partial",
   "theorems": [
    "Verif.Vells.C39_nelements_partial",
    "Verif.Vells.C39_mean_partial",
    "Verif.Vells.C39_sum_partial",
    "Verif.Vells.C39_product_partial",
    "Verif.Vells.C39_refuted"
   ],
   "note": "The count of elements is right in general; the mean is right in general; sum and product when the flags do not vary along axes where the data are constant, and false otherwise (witness)."
  },
  {
   "property": "C40",
   "status": "proved",
   "theorems": [
    "Verif.Slicer.C40_slices",
    "Verif.Slicer.C40_cover",
    "Verif.Slicer.C40_flags",
    "Verif.Slicer.C40_duplicate"
   ],
   "note": "For distinct axes. Naming an axis twice is undefined behaviour (C40_duplicate)."
  },
  {
   "property": "C41",
   "status": "proved",
   "theorems": [
    "Verif.CellGrid.C41_refl",
    "Verif.CellGrid.C41_trans",
    "Verif.CellGrid.C41_antisymm",
    "Verif.CellGrid.C41_envelope",
    "Verif.CellGrid.C41_expand",
    "Verif.CellGrid.C41_define"
   ],
   "note": "Over rational coordinates."
  },
  {
   "property": "C42",
   "status": "partial",
   "theorems": [
    "Verif.CellGrid.C42_partition_partial",
    "Verif.CellGrid.C42_drift",
    "Verif.CellGrid.C42_refuted"
   ],
   "note": "Partition, maximality and step-by-step regularity proved; steps that drift slowly are one segment although the first and the last differ (witness)."
  },
  {
   "property": "C43",
   "status": "partial",
   "theorems": [
    "Verif.CellGrid.C43_integrate",
    "Verif.CellGrid.C43_upsample",
    "Verif.CellGrid.C43_up_down",
    "Verif.CellGrid.C43_down_up",
    "Verif.CellGrid.C43_count",
    "Verif.CellGrid.C43_fails",
    "Verif.CellGrid.C43_cover_partial",
    "Verif.CellGrid.C43_axes",
    "Verif.CellGrid.C43_refuted"
   ],
   "note": "Integration by a number that is not a divisor drops the last cells (witness); everything else is proved."
  },
  {
   "property": "C44",
   "status": "partial",
   "theorems": [
    "Verif.CellGrid.C44_eq_partial",
    "Verif.CellGrid.C44_refl_symm",
    "Verif.CellGrid.C44_refuted",
    "Verif.CellGrid.C44_compare_refuted"
   ],
   "note": "Proved for operator == on proper Cells; compare ignores the grids and is wrong for empty Cells (witnesses)."
  },
  {
   "property": "C45",
   "status": "proved",
   "theorems": [
    "Verif.Func.C45_union",
    "Verif.Func.C45_order"
   ],
   "note": "For ids that are non-negative and strictly increasing in each child."
  },
  {
   "property": "C46",
   "status": "proved",
   "theorems": [
    "Verif.Polc.C46_numbering",
    "Verif.Polc.C46_default",
    "Verif.Polc.C46_given",
    "Verif.Polc.C46_update",
    "Verif.Polc.C46_bounds",
    "Verif.Polc.C46_const",
    "Verif.Polc.C46_index"
   ],
   "note": "Over rational numbers."
  },
  {
   "property": "C47",
   "status": "proved",
   "theorems": [
    "Verif.Polc.C47_transform",
    "Verif.Polc.C47_zero_scale"
   ],
   "note": "Over rational numbers and exact binomial coefficients, for new scales that are not 0 (with a scale of 0 the call stops halfway: C47_zero_scale)."
  },
  {
   "property": "C48",
   "status": "partial",
   "theorems": [
    "Verif.ParmTable.C48_returned",
    "Verif.ParmTable.C48_stored",
    "Verif.ParmTable.C48_other",
    "Verif.ParmTable.C48_kept",
    "Verif.ParmTable.C48_deleted",
    "Verif.ParmTable.C48_lookup",
    "Verif.ParmTable.C48_domains",
    "Verif.ParmTable.C48_full_partial",
    "Verif.ParmTable.C48_refuted",
    "Verif.ParmTable.C48_replaced_partial",
    "Verif.ParmTable.C48_replaced_refuted"
   ],
   "note": "The store is proved for every history; the perturbation and weight of a constant polynomial are lost (witness), and a domain within the tolerance of two others may get either number, so that the old funklet is not replaced (witness)."
  },
  {
   "property": "C49",
   "status": "partial",
   "theorems": [
    "Verif.VellSet.C49_covers_partial",
    "Verif.VellSet.C49_set",
    "Verif.VellSet.C49_merge_partial",
    "Verif.VellSet.C49_refuted"
   ],
   "note": "The shape covers all parts after any history, and is their merge while no part is replaced or removed; a replaced part leaves its extents behind (witness)."
  },
  {
   "property": "C50",
   "status": "partial",
   "theorems": [
    "Verif.VellSet.C50_last_partial",
    "Verif.VellSet.C50_refuted"
   ],
   "note": "False of the code: adding a failure removes the earlier ones (witness); only the last addition is reported."
  },
  {
   "property": "C51",
   "status": "partial",
   "theorems": [
    "Verif.Hiid.C51_subId_partial",
    "Verif.Hiid.C51_subId_negative_ub"
   ],
   "note": "Proved for start positions inside the identifier; false of the code for negative positions (witness theorem)."
  },
  {
   "property": "C52",
   "status": "partial",
   "theorems": [
    "Verif.Hiid.C52_pushFront_partial",
    "Verif.Hiid.C52_pushFront_loses_tail"
   ],
   "note": "False of the code in general (witness theorem); proved for the cases that work."
  },
  {
   "property": "C53",
   "status": "partial",
   "theorems": [
    "Verif.Subs.C53_unpack_any_partial",
    "Verif.Subs.C53_unpack_corrupt_ub"
   ],
   "note": "False of the code when the size check wraps around (witness); proved when it cannot."
  },
  {
   "property": "C54",
   "status": "proved",
   "theorems": [
    "Verif.WPQueue.C54_no_unseen_head"
   ],
   "note": ""
  },
  {
   "property": "C55",
   "status": "partial",
   "theorems": [
    "Verif.WPQueue.C55_accept_removes_partial",
    "Verif.WPQueue.C55_accepted_but_redelivered"
   ],
   "note": "False of the code when a handler lets a more urgent message in (witness); proved otherwise."
  },
  {
   "property": "C56",
   "status": "proved",
   "theorems": [
    "Verif.Events.C56_due_timeouts_fire",
    "Verif.Events.C56_registered"
   ],
   "note": ""
  },
  {
   "property": "C57",
   "status": "proved",
   "theorems": [
    "Verif.Disp.C57_ageing"
   ],
   "note": ""
  },
  {
   "property": "C58",
   "status": "partial",
   "theorems": [
    "Verif.Disp.C58_idle_means_no_work_partial",
    "Verif.Disp.C58_negative_priority_stalls"
   ],
   "note": "Proved for non-negative priorities; false of the code for negative ones (witness)."
  },
  {
   "property": "C59",
   "status": "proved",
   "theorems": [
    "Verif.Events.C59_ready_inputs_reported"
   ],
   "note": "For histories of valid calls (removals name a descriptor)."
  },
  {
   "property": "C60",
   "status": "partial",
   "theorems": [
    "Verif.Names.C60_text_round_trip_partial",
    "Verif.Names.C60_empty_component"
   ],
   "note": "Proved for components with a faithful text; false of the code for empty components (witness)."
  },
  {
   "property": "C61",
   "status": "partial",
   "theorems": [
    "Verif.Record.C61_removed_value_partial",
    "Verif.Record.C61_removed_value_refuted"
   ],
   "note": "False of the code for attached objects (witness)."
  },
  {
   "property": "C62",
   "status": "partial",
   "theorems": [
    "Verif.Record.C62_access_partial",
    "Verif.Record.C62_by_number_refuted"
   ],
   "note": "False of the code for numbers of existing fields: an iterator is used uninitialised (witness)."
  },
  {
   "property": "C63",
   "status": "partial",
   "theorems": [
    "Verif.DList.C63_append_partial",
    "Verif.DList.C63_append_self_diverges",
    "Verif.DList.C63_append_self_refuted"
   ],
   "note": "False of the code when a list is appended to itself."
  },
  {
   "property": "C64",
   "status": "partial",
   "theorems": [
    "Verif.Serial.C64_list_partial",
    "Verif.Serial.C64_corrupt_blocks_refuted",
    "Verif.Serial.C64_negative_idsize"
   ],
   "note": "False of the code (witnesses); proved for lists whose items are readable."
  },
  {
   "property": "C65",
   "status": "partial",
   "theorems": [
    "Verif.Packer.C65_variable_partial",
    "Verif.Packer.C65_wrong_length",
    "Verif.Packer.C65_refuted"
   ],
   "note": "False of the code for fixed-size elements (witness)."
  },
  {
   "property": "C66",
   "status": "partial",
   "theorems": [
    "Verif.Boio.C66_rewind_partial",
    "Verif.Boio.C66_refuted"
   ],
   "note": "False of the code once the end of file has been seen (witness)."
  },
  {
   "property": "C67",
   "status": "partial",
   "theorems": [
    "Verif.Boio.C67_failed_write_partial",
    "Verif.Boio.C67_when",
    "Verif.Boio.C67_refuted"
   ],
   "note": "Earlier objects are safe; later ones are lost (witness)."
  },
  {
   "property": "C68",
   "status": "partial",
   "theorems": [
    "Verif.Message.C68_no_undefined_partial",
    "Verif.Message.C68_refuted",
    "Verif.Message.C68_sizes_cancel"
   ],
   "note": "False of the code (witnesses); proved for headers with non-negative sizes."
  },
  {
   "property": "C69",
   "status": "partial",
   "theorems": [
    "Verif.RequestId.C69_new_id_partial",
    "Verif.RequestId.C69_refuted"
   ],
   "note": "False of the code when dependencies share bits (witness); proved for disjoint masks."
  },
  {
   "property": "C70",
   "status": "partial",
   "theorems": [
    "Verif.Nursery.C70_never_hangs_partial",
    "Verif.Nursery.C70_terminates",
    "Verif.Nursery.C70_result",
    "Verif.Nursery.C70_same_as_single",
    "Verif.Nursery.C70_refuted"
   ],
   "note": "Every schedule, when no child's outcome ends the poll early; under the abandon policy the poll can hang (witness)."
  },
  {
   "property": "C71",
   "status": "partial",
   "theorems": [
    "Verif.Vells.C71_partial",
    "Verif.Vells.C71_refuted"
   ],
   "note": "False when the first shape has more axes than the second (witness): the check of the rank is commented out."
  },
  {
   "property": "C72",
   "status": "partial",
   "theorems": [
    "Verif.Vells.C72_max_partial",
    "Verif.Vells.C72_min_partial",
    "Verif.Vells.C72_refuted"
   ],
   "note": "The maximum is wrong for arrays all of whose values are below the smallest positive double (witness)."
  },
  {
   "property": "C73",
   "status": "partial",
   "theorems": [
    "Verif.CellGrid.C73_superset",
    "Verif.CellGrid.C73_envelope_partial",
    "Verif.CellGrid.C73_refuted"
   ],
   "note": "The test is right; the envelope passes it when both domains have the same axes, and false otherwise (witness)."
  },
  {
   "property": "C74",
   "status": "proved",
   "theorems": [
    "Verif.CellGrid.C74_superset"
   ],
   "note": "For proper Cells."
  },
  {
   "property": "C75",
   "status": "partial",
   "theorems": [
    "Verif.CellGrid.C75_noop_partial",
    "Verif.CellGrid.C75_refuted"
   ],
   "note": "Equal only to Cells of the maximum rank (equivalence and witness)."
  },
  {
   "property": "C76",
   "status": "proved",
   "theorems": [
    "Verif.CellGrid.C76_regular"
   ],
   "note": ""
  },
  {
   "property": "C77",
   "status": "partial",
   "theorems": [
    "Verif.Func.C77_values",
    "Verif.Func.C77_succeeds",
    "Verif.Func.C77_defined_partial",
    "Verif.Func.C77_refuted"
   ],
   "note": "For children with the same number of perturbation sets; with different numbers the code reads past the end (witness)."
  },
  {
   "property": "C78",
   "status": "partial",
   "theorems": [
    "Verif.Func.C78_plane",
    "Verif.Func.C78_planes",
    "Verif.Func.C78_runs",
    "Verif.Func.C78_code_sound",
    "Verif.Func.C78_code_partial",
    "Verif.Func.C78_refuted"
   ],
   "note": "All but the exact meaning of the return code, which is proved when no plane of a child is a failure; otherwise failed planes may be reported as missing data (witness)."
  },
  {
   "property": "C79",
   "status": "partial",
   "theorems": [
    "Verif.VellSet.C79_fail_partial",
    "Verif.VellSet.C79_refuted"
   ],
   "note": "False for weights: the pointer to them dangles (witness); proved for all other parts."
  },
  {
   "property": "C80",
   "status": "partial",
   "theorems": [
    "Verif.Polc.C80_value_partial",
    "Verif.Polc.C80_refuted"
   ],
   "note": "False with perturbations and more than 10 coefficients in the second variable, where a table overflows (witness)."
  },
  {
   "property": "C81",
   "status": "partial",
   "theorems": [
    "Verif.Polc.C81_solve_partial",
    "Verif.Polc.C81_refuted"
   ],
   "note": "False for a polynomial with one axis, where an offset that does not exist is read (witness)."
  },
  {
   "property": "C82",
   "status": "partial",
   "theorems": [
    "Verif.Polc.C82_shape_partial",
    "Verif.Polc.C82_value",
    "Verif.Polc.C82_refuted",
    "Verif.Polc.C82_fewer"
   ],
   "note": "Proved when the number of axes stays the same and for constants; false when it changes (witnesses)."
  },
  {
   "property": "C83",
   "status": "partial",
   "theorems": [
    "Verif.Polc.C83_dropped",
    "Verif.Polc.C83_value_partial",
    "Verif.Polc.C83_refuted"
   ],
   "note": "False without a mask: the coefficients outside the default selection are set to 0 (witness)."
  },
  {
   "property": "C84",
   "status": "partial",
   "theorems": [
    "Verif.ParmTable.C84_restart",
    "Verif.ParmTable.C84_crash",
    "Verif.ParmTable.C84_resume_partial",
    "Verif.ParmTable.C84_refuted"
   ],
   "note": "False when a crash leaves part of an entry: what is added afterwards cannot be read (witness)."
  },
  {
   "property": "C85",
   "status": "proved",
   "theorems": [
    "Verif.ParmTable.C85_injective",
    "Verif.ParmTable.C85_decompose"
   ],
   "note": "Reading back works exactly for names without zero bytes."
  },
  {
   "property": "C86",
   "status": "partial",
   "theorems": [
    "Verif.ParmTable.C86_roundtrip",
    "Verif.ParmTable.C86_truncated_partial",
    "Verif.ParmTable.C86_refuted"
   ],
   "note": "False for a record cut to its first 8 bytes, which is taken for a constant (witness)."
  },
  {
   "property": "C87",
   "status": "partial",
   "theorems": [
    "Verif.NumArray.C87_element",
    "Verif.NumArray.C87_rejects",
    "Verif.NumArray.C87_slice_partial",
    "Verif.NumArray.C87_witnesses",
    "Verif.NumArray.C87_refuted"
   ],
   "note": "Proved for selections on all axes with ends on the axis and steps that divide; otherwise false (witnesses)."
  },
  {
   "property": "C88",
   "status": "partial",
   "theorems": [
    "Verif.NumArray.C88_roundtrip",
    "Verif.NumArray.C88_longer",
    "Verif.NumArray.C88_truncated_partial",
    "Verif.NumArray.C88_refuted",
    "Verif.NumArray.C88_sound_refuted"
   ],
   "note": "The round trip is proved; blocks that end within the extents are read past their end, and negative extents are accepted (witnesses)."
  },
  {
   "property": "C89",
   "status": "partial",
   "theorems": [
    "Verif.NumArray.C89_values",
    "Verif.NumArray.C89_slice_witnesses",
    "Verif.NumArray.C89_refuted"
   ],
   "note": "Proved for every history of whole arrays; false for arrays that are part of another one (witnesses)."
  },
  {
   "property": "C90",
   "status": "proved",
   "theorems": [
    "Verif.Gateway.C90_in_order",
    "Verif.Gateway.C90_delivered",
    "Verif.Gateway.C90_complete",
    "Verif.Gateway.C90_messages",
    "Verif.Gateway.C90_limit"
   ],
   "note": "For messages with no block above 512 MB (see C90_limit)."
  },
  {
   "property": "C91",
   "status": "partial",
   "theorems": [
    "Verif.Gateway.C91_partial",
    "Verif.Gateway.C91_hang",
    "Verif.Gateway.C91_refuted"
   ],
   "note": "Proved for junk without the letter 'o'; a header that begins with 'o' and is not a data header stops the reader for ever (witness)."
  },
  {
   "property": "C92",
   "status": "partial",
   "theorems": [
    "Verif.Gateway.C92_partial",
    "Verif.Gateway.C92_refuted"
   ],
   "note": "Proved if unpacking leaves no blocks behind; blocks that are left make the reader drop the next message (witness)."
  },
  {
   "property": "C93",
   "status": "partial",
   "theorems": [
    "Verif.Route.C93_no_loss",
    "Verif.Route.C93_partial",
    "Verif.Route.C93_refuted"
   ],
   "note": "Nothing is held back for any destination; the equivalence holds without '*' and is false with it (witness)."
  },
  {
   "property": "C94",
   "status": "partial",
   "theorems": [
    "Verif.Route.C94_partial",
    "Verif.Route.C94_first_message",
    "Verif.Route.C94_refuted"
   ],
   "note": "Proved if workers do not change their subscriptions while they stop; otherwise an entry for a worker that is gone stays (witness)."
  },
  {
   "property": "C95",
   "status": "partial",
   "theorems": [
    "Verif.Route.C95_partial",
    "Verif.Route.C95_everybody",
    "Verif.Route.C95_refuted"
   ],
   "note": "Proved for messages that are not for a gateway itself; a message to everybody goes round and reaches a worker any number of times (witness)."
  },
  {
   "property": "C96",
   "status": "partial",
   "theorems": [
    "Verif.Route.C96_partial",
    "Verif.Route.C96_gateways",
    "Verif.Route.C96_subscribe",
    "Verif.Route.C96_refuted"
   ],
   "note": "Proved for publish with a message and for subscriptions; publish with an id ignores the scope (witness)."
  },
  {
   "property": "C97",
   "status": "partial",
   "theorems": [
    "Verif.Route.C97_partial",
    "Verif.Route.C97_refuted"
   ],
   "note": "Proved for messages that are not for a gateway itself, in any network; false for a message to everybody (witness)."
  },
  {
   "property": "C98",
   "status": "partial",
   "theorems": [
    "Verif.Tensor.C98_append_partial",
    "Verif.Tensor.C98_shape_partial",
    "Verif.Tensor.C98_tensor_partial",
    "Verif.Tensor.C98_tensorCode_partial",
    "Verif.Tensor.C98_mismatch",
    "Verif.Tensor.C98_refuted",
    "Verif.Tensor.C98_refuted_fail",
    "Verif.Tensor.C98_refuted_size"
   ],
   "note": "Planes are proved; the return code is wrong in tensor mode with scalars or empty children, and results can have more planes than their dimensions say (witnesses)."
  },
  {
   "property": "C99",
   "status": "partial",
   "theorems": [
    "Verif.Tensor.C99_slice_partial",
    "Verif.Tensor.C99_iff",
    "Verif.Tensor.C99_multi",
    "Verif.Tensor.C99_refuses",
    "Verif.Tensor.C99_code",
    "Verif.Tensor.C99_refuted",
    "Verif.Tensor.C99_refuted_slice"
   ],
   "note": "True if and only if no more than the last sliced axis has an extent above 1 (C99_iff); false otherwise (witness)."
  },
  {
   "property": "C100",
   "status": "partial",
   "theorems": [
    "Verif.Tensor.C100_slice_partial",
    "Verif.Tensor.C100_roundtrip_partial",
    "Verif.Tensor.C100_multi",
    "Verif.Tensor.C100_misfit",
    "Verif.Tensor.C99_refuses",
    "Verif.Tensor.C100_refuted"
   ],
   "note": "As C99; pasting two sliced axes overwrites and adds other planes (witness)."
  },
  {
   "property": "C101",
   "status": "partial",
   "theorems": [
    "Verif.Tensor.C101_product",
    "Verif.Tensor.C101_chain",
    "Verif.Tensor.C101_failures",
    "Verif.Tensor.C101_refuses",
    "Verif.Tensor.C101_refuted"
   ],
   "note": "Products are proved over any commutative ring; zero times a tensor is a scalar, and hides the tensor's failures (witness)."
  },
  {
   "property": "C102",
   "status": "partial",
   "theorems": [
    "Verif.Tensor.C102_offset",
    "Verif.Tensor.C102_sent_partial",
    "Verif.Tensor.C102_inconsistent",
    "Verif.Tensor.C102_refuted"
   ],
   "note": "Proved but for a single plane made with two or more axes (witness)."
  },
  {
   "property": "C103",
   "status": "partial",
   "theorems": [
    "Verif.MsSeq.C103_order_partial",
    "Verif.MsSeq.C103_open_partial",
    "Verif.MsSeq.C103_flushed_partial",
    "Verif.MsSeq.C103_refuted"
   ],
   "note": "Order and at-most-once always hold; everything arrives if nothing is queued when the channel is closed; closing with events queued loses them (witness)."
  },
  {
   "property": "C104",
   "status": "proved",
   "theorems": [
    "Verif.MsSeq.C104_fetched"
   ],
   "note": ""
  },
  {
   "property": "C105",
   "status": "proved",
   "theorems": [
    "Verif.MsSeq.C105_sizes"
   ],
   "note": ""
  },
  {
   "property": "C106",
   "status": "proved",
   "theorems": [
    "Verif.MsSeq.C106_errors",
    "Verif.MsSeq.C106_first"
   ],
   "note": "See C107 for closing with an error on the list, which does not return."
  },
  {
   "property": "C107",
   "status": "partial",
   "theorems": [
    "Verif.MsSeq.C107_open_partial",
    "Verif.MsSeq.C107_post_partial",
    "Verif.MsSeq.C107_wait_partial",
    "Verif.MsSeq.C107_close_partial",
    "Verif.MsSeq.C107_refuted",
    "Verif.MsSeq.C107_wait_hangs",
    "Verif.MsSeq.C107_close_hangs",
    "Verif.MsSeq.C107_close_stuck",
    "Verif.MsSeq.C107_post_stuck"
   ],
   "note": "Proved while the channel behind stays open, and for closing a flushed channel without errors; otherwise calls hang (four witnesses)."
  },
  {
   "property": "C108",
   "status": "partial",
   "theorems": [
    "Verif.VisMux.C108_data_ids",
    "Verif.VisMux.C108_no_ub_partial",
    "Verif.VisMux.C108_no_ub_refuted",
    "Verif.VisMux.C108_negative_antenna"
   ],
   "note": "Numbering proved outright; no access outside the tables for any sequence of events whose tiles have antennas and a row with a time; false for a tile whose rows all have time 0 and for a negative antenna (witnesses)."
  },
  {
   "property": "C109",
   "status": "partial",
   "theorems": [
    "Verif.VisMux.C109_dataset_partial",
    "Verif.VisMux.C109_snippets",
    "Verif.VisMux.C109_sinks",
    "Verif.VisMux.C109_requests_refuted",
    "Verif.VisMux.C109_rows_refuted"
   ],
   "note": "Proved for data sets whose tiles are as they should be, whatever the calls do; with a tile no cells can be made of, tiles get the request of the snippet before, and all tiles get the rows of the first (witnesses)."
  },
  {
   "property": "C110",
   "status": "partial",
   "theorems": [
    "Verif.VisMux.C110_node_sees_partial",
    "Verif.VisMux.C110_next_stream_partial",
    "Verif.VisMux.C110_attached",
    "Verif.VisMux.C110_refuted"
   ],
   "note": "Proved if every header announces the baseline; a data set with fewer stations detaches nodes for good (witness)."
  },
  {
   "property": "C111",
   "status": "partial",
   "theorems": [
    "Verif.VisMux.C111_form_partial",
    "Verif.VisMux.C111_written",
    "Verif.VisMux.C111_form_refuted",
    "Verif.VisMux.C111_bad_header"
   ],
   "note": "What is written is proved outright; the form holds but for a footer without a header when nothing was written (witness) and for headers that lack fields (witness)."
  },
  {
   "property": "C112",
   "status": "partial",
   "theorems": [
    "Verif.VisMux.C112_success_partial",
    "Verif.VisMux.C112_failure",
    "Verif.VisMux.C112_datasets",
    "Verif.VisMux.C112_refuted"
   ],
   "note": "Proved without a limit on the number of snippets; with one, errors of the last snippet are lost (witness). The other direction is proved with any limit."
  },
  {
   "property": "C113",
   "status": "partial",
   "theorems": [
    "Verif.VisMux.C113_limit_partial",
    "Verif.VisMux.C113_refuted"
   ],
   "note": "The number of snippets is proved; a data set cut short ends without a footer for the nodes (witness)."
  },
  {
   "property": "C114",
   "status": "partial",
   "theorems": [
    "Verif.VisNodes.C114_partial",
    "Verif.VisNodes.C114_flagged",
    "Verif.VisNodes.C114_noMask",
    "Verif.VisNodes.C114_outcome",
    "Verif.VisNodes.C114_uvw",
    "Verif.VisNodes.C114_off_partial",
    "Verif.VisNodes.C114_refuted",
    "Verif.VisNodes.C114_off_refuted"
   ],
   "note": "Proved with a flag mask; without one only the first time slot gets its row's flags (witness), and missing rows are flagged although the documentation says that there are no flags (witness). Columns without correlations are not modelled."
  },
  {
   "property": "C115",
   "status": "partial",
   "theorems": [
    "Verif.VisNodes.C115_match",
    "Verif.VisNodes.C115_snippets_partial",
    "Verif.VisNodes.C115_late",
    "Verif.VisNodes.C115_kept",
    "Verif.VisNodes.C115_refuted",
    "Verif.VisNodes.C115_tiles_refuted"
   ],
   "note": "Proved for snippets in order; a request for something else empties the queue, and the second tile of a snippet is never used (witnesses)."
  },
  {
   "property": "C116",
   "status": "partial",
   "theorems": [
    "Verif.VisNodes.C116_frame",
    "Verif.VisNodes.C116_values",
    "Verif.VisNodes.C116_flags_partial",
    "Verif.VisNodes.C116_flags_kept",
    "Verif.VisNodes.C116_attached",
    "Verif.VisNodes.C116_succeeds",
    "Verif.VisNodes.C116_scalar",
    "Verif.VisNodes.C116_flags_refuted",
    "Verif.VisNodes.C116_two_refuted",
    "Verif.VisNodes.C116_other_ub"
   ],
   "note": "Frame and values proved outright; flags are dropped if the rows are part of the tile or the plane is zero (witnesses). Columns without correlations are not modelled."
  },
  {
   "property": "C117",
   "status": "partial",
   "theorems": [
    "Verif.VisNodes.C117_copy",
    "Verif.VisNodes.C117_flags",
    "Verif.VisNodes.C117_rowflags_refuted"
   ],
   "note": "Values are copied for any rows; flags stay as they were if none are masked; row flags do not reach the tile if the rows are part of it (witness)."
  },
  {
   "property": "C118",
   "status": "proved",
   "theorems": [
    "Verif.Tiling.C118_tile_of_cell",
    "Verif.Tiling.C118_tile_unique"
   ],
   "note": ""
  },
  {
   "property": "C119",
   "status": "partial",
   "theorems": [
    "Verif.Solver.C119_partial",
    "Verif.Solver.C119_whole_tiles",
    "Verif.Solver.C119_refuted"
   ],
   "note": "Proved if all axes are defined, no tile is larger than the grid and tile sizes can be compared; with an axis that is not defined there is a division by zero (witness)."
  },
  {
   "property": "C120",
   "status": "partial",
   "theorems": [
    "Verif.Solver.C120_partial",
    "Verif.Solver.C120_refuted"
   ],
   "note": "Proved under the same conditions; one parameter tiled in time and another in frequency get the same tiles (witness)."
  },
  {
   "property": "C121",
   "status": "partial",
   "theorems": [
    "Verif.Solver.C121_partial",
    "Verif.Solver.C121_unknown",
    "Verif.Solver.C121_refuted"
   ],
   "note": "Proved under the conditions of C119; without them setting up may fail (witness)."
  },
  {
   "property": "C122",
   "status": "partial",
   "theorems": [
    "Verif.Solver.C122_partial",
    "Verif.Solver.C122_refuted"
   ],
   "note": "Proved for parameters with the same tile sizes; otherwise equations are put on the wrong tile's unknown (witness)."
  },
  {
   "property": "C123",
   "status": "partial",
   "theorems": [
    "Verif.Solver.C123_partial",
    "Verif.Solver.C123_one_axis",
    "Verif.Solver.C123_refuted"
   ],
   "note": "Proved if tiles come in the order of their solver tiles, so whenever only one axis is tiled; with two axes updates are exchanged (witness)."
  },
  {
   "property": "C124",
   "status": "partial",
   "theorems": [
    "Verif.Solver.C124_partial",
    "Verif.Solver.C124_slot",
    "Verif.Solver.C124_rank",
    "Verif.Solver.C124_refuted"
   ],
   "note": "Proved for up to 256 solvable coefficients a parameter; with more, entries of the next node are lost (witness)."
  },
  {
   "property": "C125",
   "status": "proved",
   "theorems": [
    "Verif.Slicer.C125_requests",
    "Verif.Slicer.C125_iterations"
   ],
   "note": "What the children reply, the fits and the flags are arbitrary; evaluations of children are atomic."
  },
  {
   "property": "C126",
   "status": "partial",
   "theorems": [
    "Verif.Slicer.C126_each",
    "Verif.Slicer.C126_delivered_partial",
    "Verif.Slicer.C126_without_last",
    "Verif.Slicer.C126_refuted"
   ],
   "note": "Proved unless an interrupt is seen in an iteration without equations, when the last update is sent twice (witness)."
  },
  {
   "property": "C127",
   "status": "partial",
   "theorems": [
    "Verif.Slicer.C127_result",
    "Verif.Slicer.C127_converged_partial",
    "Verif.Slicer.C127_refuted"
   ],
   "note": "What converged means is proved exactly; as documented only if there are equations for all subsolvers: those without count as converged (witness)."
  },
  {
   "property": "C128",
   "status": "partial",
   "theorems": [
    "Verif.Slicer.C128_no_result_partial",
    "Verif.Slicer.C128_no_update",
    "Verif.Slicer.C128_in_turn",
    "Verif.Slicer.C128_runs",
    "Verif.Slicer.C128_refuted"
   ],
   "note": "No result and no update are proved; the code is that for an abort unless the flag is raised during the last fits (witness)."
  },
  {
   "property": "C129",
   "status": "partial",
   "theorems": [
    "Verif.Slicer.C129_ignored_partial",
    "Verif.Slicer.C129_discovery_partial",
    "Verif.Slicer.C129_refuted"
   ],
   "note": "Failures in iterations are ignored (witness)."
  },
  {
   "property": "C130",
   "status": "partial",
   "theorems": [
    "Verif.Slicer.C130_partial",
    "Verif.Slicer.C130_not_asked",
    "Verif.Slicer.C130_refuted",
    "Verif.Slicer.C130_interrupt_not_saved"
   ],
   "note": "Proved with last_update, equations in all iterations and no late interrupt; without last_update nothing is saved (witness)."
  },
  {
   "property": "C131",
   "status": "proved",
   "theorems": [
    "Verif.SolveWorkers.C131_same",
    "Verif.SolveWorkers.C131_single",
    "Verif.SolveWorkers.C131_exclusive",
    "Verif.SolveWorkers.C131_alone"
   ],
   "note": "At least one worker (the threads are used only then). Mutexes and condition variables are taken to behave as POSIX says."
  },
  {
   "property": "C132",
   "status": "proved",
   "theorems": [
    "Verif.SolveWorkers.C132_exceptions",
    "Verif.SolveWorkers.C132_subsolvers"
   ],
   "note": "Exceptions other than std::exception are not modelled."
  },
  {
   "property": "C133",
   "status": "proved",
   "theorems": [
    "Verif.SolveWorkers.C133_no_deadlock",
    "Verif.SolveWorkers.C133_bounded",
    "Verif.SolveWorkers.C133_returns",
    "Verif.SolveWorkers.C133_stop"
   ],
   "note": ""
  },
  {
   "property": "C134",
   "status": "proved",
   "theorems": [
    "Verif.Composed.C134_tiles"
   ],
   "note": ""
  },
  {
   "property": "C135",
   "status": "partial",
   "theorems": [
    "Verif.Composed.C135_composed_partial",
    "Verif.Composed.C135_refuted"
   ],
   "note": "Proved if no part ends before the first centre and parts with the same range along an axis have the whole grid in it; otherwise false (witness)."
  },
  {
   "property": "C136",
   "status": "proved",
   "theorems": [
    "Verif.Composed.C136_tiled_value",
    "Verif.Composed.C136_init"
   ],
   "note": "Order and preparation for cells wider than the tolerance of 1e-16. Forced shapes are left out."
  },
  {
   "property": "C137",
   "status": "partial",
   "theorems": [
    "Verif.Composed.C137_copy_partial",
    "Verif.Composed.C137_refuted"
   ],
   "note": "Proved for cells one part is for; elsewhere the default is lost (witness)."
  },
  {
   "property": "C138",
   "status": "partial",
   "theorems": [
    "Verif.Parm.C138_start_partial",
    "Verif.Parm.C138_determined",
    "Verif.Parm.C138_cleared",
    "Verif.Parm.C138_refuted"
   ],
   "note": "Proved unless the parameter goes on with what it has; it also does that for a new domain inside the one it has a funklet for (witness)."
  },
  {
   "property": "C139",
   "status": "proved",
   "theorems": [
    "Verif.Parm.C139_no_memory"
   ],
   "note": "Parameters that are given a funklet through their state are left out."
  },
  {
   "property": "C140",
   "status": "partial",
   "theorems": [
    "Verif.Parm.C140_updates_partial",
    "Verif.Parm.C140_once",
    "Verif.Parm.C140_refused",
    "Verif.Parm.C140_refuted"
   ],
   "note": "Which updates count is proved exactly; one after another command of the same request is lost (witness)."
  },
  {
   "property": "C141",
   "status": "partial",
   "theorems": [
    "Verif.Parm.C141_reload_partial",
    "Verif.Parm.C141_refuted"
   ],
   "note": "Proved if no other entry overlaps; otherwise a solvable parameter gets the first of them (witness)."
  },
  {
   "property": "C142",
   "status": "partial",
   "theorems": [
    "Verif.Parm.C142_not_saved_partial",
    "Verif.Parm.C142_saved",
    "Verif.Parm.C142_decision",
    "Verif.Parm.C142_refuted"
   ],
   "note": "When the table is written is proved exactly; the flag of convergence is never lowered, so later solutions are saved whether they converged or not (witness)."
  },
  {
   "property": "C143",
   "status": "partial",
   "theorems": [
    "Verif.Parm.C143_saved_domain_partial",
    "Verif.Parm.C143_refuted"
   ],
   "note": "Proved unless a funklet of a larger domain is still being solved for: then its entry is overwritten (witness)."
  },
  {
   "property": "C144",
   "status": "proved",
   "theorems": [
    "Verif.Func.C144_function",
    "Verif.Func.C144_tensor"
   ],
   "note": ""
  },
  {
   "property": "C145",
   "status": "partial",
   "theorems": [
    "Verif.Func.C145_several",
    "Verif.Func.C145_single",
    "Verif.Func.C145_partial",
    "Verif.Func.C145_refuted"
   ],
   "note": "What is merged is proved exactly; no bits are lost with several children or a full mask. A single child loses its bits outside the mask (witness)."
  },
  {
   "property": "C146",
   "status": "partial",
   "theorems": [
    "Verif.Func.C146_node",
    "Verif.Func.C146_partial",
    "Verif.Func.C146_refuted"
   ],
   "note": "The flags after are described exactly; flags set before are replaced, not ORed (witness)."
  },
  {
   "property": "C147",
   "status": "partial",
   "theorems": [
    "Verif.Func.C147_decision",
    "Verif.Func.C147_axes",
    "Verif.Func.C147_partial",
    "Verif.Func.C147_refuted",
    "Verif.Func.C147_refuted_outside"
   ],
   "note": "Proved for masks with bit 0 and flags within the mask; otherwise false (witnesses). The slices along axes are those of C40."
  },
  {
   "property": "C148",
   "status": "partial",
   "theorems": [
    "Verif.Func.C148_partial",
    "Verif.Func.C148_refuted"
   ],
   "note": "Proved up to 30 children; beyond, a shift overflows (witness)."
  },
  {
   "property": "C149",
   "status": "partial",
   "theorems": [
    "Verif.Func.C149_partial",
    "Verif.Func.C149_refuted"
   ],
   "note": "Proved if the flags broadcast to the value; otherwise an exception (witness)."
  },
  {
   "property": "C150",
   "status": "partial",
   "theorems": [
    "Verif.Func.C150_partial",
    "Verif.Func.C150_refuted"
   ],
   "note": "Main values stay and derivatives go; the flags of an element with derivatives go too (witness)."
  },
  {
   "property": "C151",
   "status": "partial",
   "theorems": [
    "Verif.ReqNodes.C151_decision",
    "Verif.ReqNodes.C151_chosen_partial",
    "Verif.ReqNodes.C151_collect",
    "Verif.ReqNodes.C151_refuted"
   ],
   "note": "The answer is decided outright; if the chosen child fails there is no result at all (witness)."
  },
  {
   "property": "C152",
   "status": "proved",
   "theorems": [
    "Verif.ReqNodes.C152_others"
   ],
   "note": ""
  },
  {
   "property": "C153",
   "status": "proved",
   "theorems": [
    "Verif.ReqNodes.C153_calls",
    "Verif.ReqNodes.C153_all",
    "Verif.ReqNodes.C153_distinct"
   ],
   "note": "Waits and aborts are not modelled."
  },
  {
   "property": "C154",
   "status": "partial",
   "theorems": [
    "Verif.ReqNodes.C154_chosen_partial",
    "Verif.ReqNodes.C154_no_cells",
    "Verif.ReqNodes.C154_stop",
    "Verif.ReqNodes.C154_stop_missing",
    "Verif.ReqNodes.C154_cells_only",
    "Verif.ReqNodes.C154_sequence_mode",
    "Verif.ReqNodes.C154_refuted"
   ],
   "note": "Proved for requests with cells; without, failures and dependencies of the children are dropped (witness)."
  },
  {
   "property": "C155",
   "status": "partial",
   "theorems": [
    "Verif.ReqNodes.C155_cache_partial",
    "Verif.ReqNodes.C155_refuted"
   ],
   "note": "Proved for histories of requests with cells (smart policy, one parent, one request type); a request without cells poisons the cache (witness)."
  },
  {
   "property": "C156",
   "status": "partial",
   "theorems": [
    "Verif.ReqNodes.C156_disabled_partial",
    "Verif.ReqNodes.C156_sequence",
    "Verif.ReqNodes.C156_refuted"
   ],
   "note": "A sequencer executes disabled children (witness); a multiplexer does not."
  },
  {
   "property": "C157",
   "status": "proved",
   "theorems": [
    "Verif.Condeq.C157_equation",
    "Verif.Condeq.C157_law"
   ],
   "note": "Numbers are rational; steps of 0 are excluded from the law."
  },
  {
   "property": "C158",
   "status": "proved",
   "theorems": [
    "Verif.Condeq.C158_modulo",
    "Verif.Condeq.C158_complex"
   ],
   "note": ""
  },
  {
   "property": "C159",
   "status": "proved",
   "theorems": [
    "Verif.Condeq.C159_element",
    "Verif.Condeq.C157_equation"
   ],
   "note": ""
  },
  {
   "property": "C160",
   "status": "partial",
   "theorems": [
    "Verif.Condeq.C160_null_partial",
    "Verif.Condeq.C160_refuted"
   ],
   "note": "Elements without a value are proved; a failed element becomes one without a value and the failure is lost (witness)."
  },
  {
   "property": "C161",
   "status": "partial",
   "theorems": [
    "Verif.Condeq.C161_missing_partial",
    "Verif.Condeq.C161_mismatch",
    "Verif.Condeq.C161_refuted"
   ],
   "note": "Proved if the first child has a result; if not, there is an exception (witness)."
  },
  {
   "property": "C162",
   "status": "proved",
   "theorems": [
    "Verif.MatNodes.C162_values",
    "Verif.MatNodes.C162_succeeds",
    "Verif.MatNodes.C162_missing"
   ],
   "note": "Flags and cells are left out; the function is taken to fill all elements of its output."
  },
  {
   "property": "C163",
   "status": "proved",
   "theorems": [
    "Verif.MatNodes.C163_inverse",
    "Verif.MatNodes.C163_scalar",
    "Verif.MatNodes.C163_scalar_failed",
    "Verif.MatNodes.C163_refuses",
    "Verif.MatNodes.C163_failures"
   ],
   "note": "Values in a field; determinants other than zero. Of several failures one is kept (see C78)."
  },
  {
   "property": "C164",
   "status": "partial",
   "theorems": [
    "Verif.MatNodes.C164_transposes_partial",
    "Verif.MatNodes.C164_vectors",
    "Verif.MatNodes.C164_twice_partial",
    "Verif.MatNodes.C164_conjugate",
    "Verif.MatNodes.C164_dropped",
    "Verif.MatNodes.C164_refuted"
   ],
   "note": "Proved unless the last but one axis has extent 1: then that axis is dropped (witness)."
  },
  {
   "property": "C165",
   "status": "partial",
   "theorems": [
    "Verif.MatNodes.C165_matrix_partial",
    "Verif.MatNodes.C165_unpolarised",
    "Verif.MatNodes.C165_error",
    "Verif.MatNodes.C165_refuted"
   ],
   "note": "Proved with the exact condition for an exception; Q without a value next to U is one (witness). Derivatives and flags are dropped by the code."
  },
  {
   "property": "C166",
   "status": "partial",
   "theorems": [
    "Verif.Riders.C166_commands",
    "Verif.Riders.C166_none",
    "Verif.Riders.C166_listed_partial",
    "Verif.Riders.C166_refuted"
   ],
   "note": "Which commands are performed is proved exactly; an entry with an empty list of names is for every node (witness)."
  },
  {
   "property": "C167",
   "status": "partial",
   "theorems": [
    "Verif.Riders.C167_all",
    "Verif.Riders.C167_index",
    "Verif.Riders.C167_adds",
    "Verif.Riders.C167_new_group",
    "Verif.Riders.C167_list_throws",
    "Verif.Riders.C167_refuted"
   ],
   "note": "Proved for commands to all and by index; a list of entries is stored in the wrong field and makes nodes throw (witness)."
  },
  {
   "property": "C168",
   "status": "proved",
   "theorems": [
    "Verif.NodeLock.C168_one_executes",
    "Verif.NodeLock.C168_cache_and_state",
    "Verif.NodeLock.C168_flag"
   ],
   "note": "One node; what the body of an execution does is abstracted to giving the state mutex up and taking it again. The mutexes are the recursive ones of the code, held as a whole."
  },
  {
   "property": "C169",
   "status": "proved",
   "theorems": [
    "Verif.NodeLock.C169_no_deadlock",
    "Verif.NodeLock.C169_ends",
    "Verif.NodeLock.C169_finishes"
   ],
   "note": "One node; evaluating and being stopped are taken to end."
  },
  {
   "property": "C170",
   "status": "partial",
   "theorems": [
    "Verif.NodeLock.C170_status_partial",
    "Verif.NodeLock.C170_refuted"
   ],
   "note": "Proved if there is no cache or if the calls do not overlap; false for overlapping calls, which hold different mutexes (witness)."
  },
  {
   "property": "C171",
   "status": "partial",
   "theorems": [
    "Verif.Execute.C171_result",
    "Verif.Execute.C171_stored",
    "Verif.Execute.C171_exception",
    "Verif.Execute.C171_calls",
    "Verif.Execute.C171_evaluates",
    "Verif.Execute.C171_aborts",
    "Verif.Execute.C171_missing",
    "Verif.Execute.C171_no_exception_partial",
    "Verif.Execute.C171_refuted"
   ],
   "note": "All proved except that no exception leaves: if caching a failure throws too, one does, out of a function declared to throw none (witness)."
  },
  {
   "property": "C172",
   "status": "partial",
   "theorems": [
    "Verif.Execute.C172_status_partial",
    "Verif.Execute.C172_missing_is_ok",
    "Verif.Execute.C172_refuted"
   ],
   "note": "Proved unless the abort flag is up at once or the node itself finds data missing (witnesses)."
  },
  {
   "property": "C173",
   "status": "partial",
   "theorems": [
    "Verif.Execute.C173_posted_partial",
    "Verif.Execute.C173_refuted"
   ],
   "note": "Proved for exceptions; failures returned by an evaluation are not posted (witness)."
  },
  {
   "property": "C174",
   "status": "partial",
   "theorems": [
    "Verif.Threads.C174_partial",
    "Verif.Threads.C174_locks",
    "Verif.Threads.C174_waits",
    "Verif.Threads.C174_release",
    "Verif.Threads.C174_moves",
    "Verif.Threads.C174_refuted"
   ],
   "note": "Proved without TRY; with it an object claims a mutex another thread holds (witness). Assignment from an empty object, which dereferences a null pointer, is left out."
  },
  {
   "property": "C175",
   "status": "partial",
   "theorems": [
    "Verif.Threads.C175_partial",
    "Verif.Threads.C175_refuted"
   ],
   "note": "Proved exactly when it holds: if the fractions of a second come to less than a second; otherwise the wait ends at once (witness). Rounding of the double is left out."
  },
  {
   "property": "C176",
   "status": "proved",
   "theorems": [
    "Verif.Threads.C176",
    "Verif.Threads.C176_read",
    "Verif.Threads.C176_write",
    "Verif.Threads.C176_upgrade",
    "Verif.Threads.C176_back",
    "Verif.Threads.C176_downgrade"
   ],
   "note": "Threads give back what they have and upgrade what they have; the functions are steps from call to return or sleep, as they hold a mutex."
  },
  {
   "property": "C177",
   "status": "partial",
   "theorems": [
    "Verif.Threads.C177_partial",
    "Verif.Threads.C177_refuted",
    "Verif.Threads.C177_refuted_readers"
   ],
   "note": "Proved: nobody sleeps at a lock that nobody has, unless a thread is awake in a call. False in general: the code signals one thread, and only when the count of readers reaches zero (two witnesses)."
  },
  {
   "property": "C178",
   "status": "partial",
   "theorems": [
    "Verif.ChildCells.C178_partial",
    "Verif.ChildCells.C178_axes",
    "Verif.ChildCells.C178_accepts",
    "Verif.ChildCells.C178_refuses",
    "Verif.ChildCells.C178_off",
    "Verif.ChildCells.C178_refuted"
   ],
   "note": "Proved for the first child with cells, for all whose cells are another object, and if all share one. A child that shares the first one's cells object is not compared and its axes are not noted, so another child's may replace them (witness). Centres and sizes of cells are left out."
  },
  {
   "property": "C179",
   "status": "proved",
   "theorems": [
    "Verif.ChildCells.C179",
    "Verif.ChildCells.C179_known"
   ],
   "note": "Maps as functions from parameter numbers."
  },
  {
   "property": "C180",
   "status": "partial",
   "theorems": [
    "Verif.AsyncPoll.C180_partial",
    "Verif.AsyncPoll.C180_no_abort_partial",
    "Verif.AsyncPoll.C180_starts_settled",
    "Verif.AsyncPoll.C180_sleeps_safely",
    "Verif.AsyncPoll.C180_sleeps_safely_no_abort",
    "Verif.AsyncPoll.C180_completes",
    "Verif.AsyncPoll.C180_orders",
    "Verif.AsyncPoll.C180_start",
    "Verif.AsyncPoll.C180_refuses",
    "Verif.AsyncPoll.C180_single",
    "Verif.AsyncPoll.C180_single_count",
    "Verif.AsyncPoll.C180_stale",
    "Verif.AsyncPoll.C180_refuted"
   ],
   "note": "Proved for schedules in which no poll is started while orders of an earlier one are left, in particular if polls are never aborted. False otherwise: a worker still filling an order of an aborted poll drops its result into the next one (witness). Only this node's work orders are modelled."
  },
  {
   "property": "C181",
   "status": "partial",
   "theorems": [
    "Verif.AsyncPoll.C181_partial",
    "Verif.AsyncPoll.C181_completes",
    "Verif.AsyncPoll.C181_orders_partial",
    "Verif.AsyncPoll.C181_orders_refuted",
    "Verif.AsyncPoll.C181_unwaited",
    "Verif.AsyncPoll.C181_refuted"
   ],
   "note": "Proved if no poll of the nursery was ever aborted and, for who is polled, for the default poll order. False after an abort: the flag that ends the wait is never taken down again (witness)."
  },
  {
   "property": "C182",
   "status": "partial",
   "theorems": [
    "Verif.WSum.C182_partial",
    "Verif.WSum.C182_fails",
    "Verif.WSum.C182_zero_weight",
    "Verif.WSum.C182_refuted"
   ],
   "note": "Proved if no child has weight zero; with several weights of which one is zero or left out the node always fails (proved, witness). Exact arithmetic, one cell."
  },
  {
   "property": "C183",
   "status": "partial",
   "theorems": [
    "Verif.WSum.C183_partial",
    "Verif.WSum.C183_plain",
    "Verif.WSum.C183_cancel",
    "Verif.WSum.C183_fails",
    "Verif.WSum.C183_refuted"
   ],
   "note": "Proved if no child has weight zero; fails otherwise, as C182. Exact arithmetic, one cell."
  },
  {
   "property": "C184",
   "status": "partial",
   "theorems": [
    "Verif.AxisMap.C184_partial",
    "Verif.AxisMap.C184_setVec",
    "Verif.AxisMap.C184_setIter",
    "Verif.AxisMap.C184_setRecords",
    "Verif.AxisMap.C184_accepts",
    "Verif.AxisMap.C184_add",
    "Verif.AxisMap.C184_reset",
    "Verif.AxisMap.C184_stale",
    "Verif.AxisMap.C184_refuted"
   ],
   "note": "Proved if axes are only added to the default ones; for a map that is set, proved for the axes it names. False in general: names that a map replaces stay known, and axes it leaves out keep theirs (witness)."
  },
  {
   "property": "C185",
   "status": "partial",
   "theorems": [
    "Verif.AxisMap.C185_partial",
    "Verif.AxisMap.C185_swapped",
    "Verif.AxisMap.C185_halfway",
    "Verif.AxisMap.C185_refuted"
   ],
   "note": "Proved if the sender's names are different and either not the default ones, or understood by the receiver. False otherwise (witness): default names are not sent along. Exact arithmetic."
  },
  {
   "property": "C186",
   "status": "partial",
   "theorems": [
    "Verif.AxisMap.C186_partial",
    "Verif.AxisMap.C186_refuses",
    "Verif.AxisMap.C186_refuted"
   ],
   "note": "Proved for records without fields called by a number above 7. False otherwise: the range is written behind the end of an array (witness)."
  },
  {
   "property": "C187",
   "status": "proved",
   "theorems": [
    "Verif.GwClient.C187",
    "Verif.GwClient.C187_what"
   ],
   "note": "The decision for an advertisement; that advertisements arrive is not modelled."
  },
  {
   "property": "C188",
   "status": "partial",
   "theorems": [
    "Verif.GwClient.C188_partial",
    "Verif.GwClient.C188_given_up",
    "Verif.GwClient.C188_refuted"
   ],
   "note": "Proved for clients that do not look for servers, or hear of none. False otherwise: a connection that is given up is removed while the list is gone through (witness). stop() is not modelled."
  },
  {
   "property": "C189",
   "status": "partial",
   "theorems": [
    "Verif.GwClient.C189_partial",
    "Verif.GwClient.C189_retries",
    "Verif.GwClient.C189_tries_within_two",
    "Verif.GwClient.C189_times_out",
    "Verif.GwClient.C189_connected",
    "Verif.GwClient.C189_outcome",
    "Verif.GwClient.C189_bye",
    "Verif.GwClient.C189_advert",
    "Verif.GwClient.C189_advert_early",
    "Verif.GwClient.C189_bindError",
    "Verif.GwClient.C189_bindError_net",
    "Verif.GwClient.C189_once",
    "Verif.GwClient.C189_duplicate",
    "Verif.GwClient.C189_forgotten",
    "Verif.GwClient.C189_refuted"
   ],
   "note": "That a configured peer stays on the list is proved without advertisements, and false with them (witness): one makes it a peer that is given up. That peers on the list are tried again, and what comes of it, is proved for all histories."
  },
  {
   "property": "C190",
   "status": "proved",
   "theorems": [
    "Verif.GwClient.C190",
    "Verif.GwClient.C190_stops"
   ],
   "note": "For all histories without stop()."
  },
  {
   "property": "C191",
   "status": "partial",
   "theorems": [
    "Verif.PyConv.C191_partial",
    "Verif.PyConv.C191_wide_int",
    "Verif.PyConv.C191_huge_int",
    "Verif.PyConv.C191_lone_bool",
    "Verif.PyConv.C191_nul",
    "Verif.PyConv.C191_mixed_rows",
    "Verif.PyConv.C191_none_hiid",
    "Verif.PyConv.C191_list_list",
    "Verif.PyConv.C191_unsupported",
    "Verif.PyConv.C191_byte_order",
    "Verif.PyConv.C191_one_element",
    "Verif.PyConv.C191_refuted"
   ],
   "note": "Proved for plain values of any depth (32-bit integers, no NUL, native byte order, restrictions on nested sequences). False otherwise, with a theorem for each kind of failure. Floating point numbers are names of values."
  },
  {
   "property": "C192",
   "status": "partial",
   "theorems": [
    "Verif.PyConv.C192_partial",
    "Verif.PyConv.C192_back",
    "Verif.PyConv.C192_refuted"
   ],
   "note": "Proved: fields do not affect each other, in either direction. False that every field arrives: one that cannot be converted is dropped (witness)."
  },
  {
   "property": "C193",
   "status": "partial",
   "theorems": [
    "Verif.PyConv.C193_partial",
    "Verif.PyConv.C193_back",
    "Verif.PyConv.C193_no_sender",
    "Verif.PyConv.C193_pending",
    "Verif.PyConv.C193_refuted"
   ],
   "note": "Proved if a sender is set whenever an addressee is. A message with an addressee alone cannot be converted (proved)."
  },
  {
   "property": "C194",
   "status": "partial",
   "theorems": [
    "Verif.PyConv.C194_partial",
    "Verif.PyConv.C194_float",
    "Verif.PyConv.C194_long",
    "Verif.PyConv.C194_refuted"
   ],
   "note": "Proved for stable values of any depth. False otherwise (witnesses): scalars of other types than int, double and double complex change type, and long integers are cut."
  },
  {
   "property": "C195",
   "status": "partial",
   "theorems": [
    "Verif.VTile.C195_partial",
    "Verif.VTile.C195_readable_partial"
   ],
   "note": "Proved for histories in which copy, setTileId and wcolumn are applied only to tiles that do not share their memory. Tiles without rows but with columns are undefined behaviour (C197_new_empty)."
  },
  {
   "property": "C196",
   "status": "partial",
   "theorems": [
    "Verif.VTile.C196_partial",
    "Verif.VTile.C196_completes",
    "Verif.VTile.C196_column_partial",
    "Verif.VTile.C196_stray_write",
    "Verif.VTile.C196_refuted"
   ],
   "note": "Proved for the histories of C195. False otherwise: after copy, setTileId or wcolumn on a tile that shares its memory, its arrays still refer to the memory of the other tile (witness)."
  },
  {
   "property": "C197",
   "status": "partial",
   "theorems": [
    "Verif.VTile.C197_partial",
    "Verif.VTile.C197_copy_equal",
    "Verif.VTile.C197_copy_completes",
    "Verif.VTile.C197_empty_copy",
    "Verif.VTile.C197_new",
    "Verif.VTile.C197_new_completes",
    "Verif.VTile.C197_new_empty",
    "Verif.VTile.C197_refuted"
   ],
   "note": "Proved for the histories of C195, whatever is shared; false otherwise (witness). A tile without rows cannot be copied, and making one with columns is undefined behaviour (proved)."
  },
  {
   "property": "C198",
   "status": "partial",
   "theorems": [
    "Verif.VTile.C198_partial",
    "Verif.VTile.C198_sends",
    "Verif.VTile.C198_refuted"
   ],
   "note": "Proved for the histories of C195; false otherwise (witness). Blocks are passed on by reference, as within one process."
  },
  {
   "property": "C199",
   "status": "partial",
   "theorems": [
    "Verif.VTile.C199_partial",
    "Verif.VTile.C199_whole_partial",
    "Verif.VTile.C199_completes",
    "Verif.VTile.C199_refuses",
    "Verif.VTile.C199_start_unchecked",
    "Verif.VTile.C199_other_start_unchecked",
    "Verif.VTile.C199_refuted"
   ],
   "note": "Proved for columns of one element per cell, and for whole tiles with any columns. False for rows of array columns: bytes are copied as if a row's elements were together (witness). Two starts are not checked (witnesses)."
  },
  {
   "property": "C200",
   "status": "partial",
   "theorems": [
    "Verif.VTile.C200_partial",
    "Verif.VTile.C200_completes",
    "Verif.VTile.C200_identifier",
    "Verif.VTile.C200_dropped",
    "Verif.VTile.C200_refuted"
   ],
   "note": "Proved for columns of one element per cell; false for array columns, whose elements are out of order after rows have been added (witness)."
  },
  {
   "property": "C201",
   "status": "partial",
   "theorems": [
    "Verif.VTile.C201_partial",
    "Verif.VTile.C201_refuted"
   ],
   "note": "Proved if columns whose shape stays keep their type. False otherwise: the old column's bytes are copied over the new one, and beyond its end if the new elements are smaller (witness)."
  },
  {
   "property": "C202",
   "status": "partial",
   "theorems": [
    "Verif.Config.C202_partial",
    "Verif.Config.C202_integer",
    "Verif.Config.C202_long",
    "Verif.Config.C202_blank",
    "Verif.Config.C202_leading",
    "Verif.Config.C202_newline",
    "Verif.Config.C202_comment",
    "Verif.Config.C202_refuted"
   ],
   "note": "Proved for names without blanks not starting with '#', one-line values not starting with white space, and at most 1022 bytes of both. False otherwise (witnesses)."
  },
  {
   "property": "C203",
   "status": "partial",
   "theorems": [
    "Verif.Config.C203_partial",
    "Verif.Config.C203_load",
    "Verif.Config.C203_set",
    "Verif.Config.C203_keep",
    "Verif.Config.C203_merge_partial",
    "Verif.Config.C203_merge_refuted",
    "Verif.Config.C203_refuted"
   ],
   "note": "Proved if lines of files are at most 1023 bytes long and without zero bytes; longer lines are read as several (witness). Merging one configuration into another with override does not override (proved)."
  },
  {
   "property": "C204",
   "status": "proved",
   "theorems": [
    "Verif.Config.C204",
    "Verif.Config.C204_prefix",
    "Verif.Config.C204_value_taken"
   ],
   "note": "Stated as the code decides: an argument that starts with the option counts. So an option is also found in a longer one, and in the value of another (witnesses)."
  },
  {
   "property": "C205",
   "status": "partial",
   "theorems": [
    "Verif.NodeInit.C205_partial",
    "Verif.NodeInit.C205_refuted"
   ],
   "note": "Proved if no two fields of the record mean the same child; otherwise the last one is taken silently (witness). Of a class only the arguments of the constructor are modelled."
  },
  {
   "property": "C206",
   "status": "partial",
   "theorems": [
    "Verif.NodeInit.C206_partial",
    "Verif.NodeInit.C206_accepts",
    "Verif.NodeInit.C206_again",
    "Verif.NodeInit.C206_refuted"
   ],
   "note": "Proved for a batch on an empty forest. A further batch initialises all nodes again and always ends in errors if there is a node with a child or stepchild (C206_again)."
  },
  {
   "property": "C207",
   "status": "partial",
   "theorems": [
    "Verif.NodeInit.C207_partial",
    "Verif.NodeInit.C207_refused",
    "Verif.NodeInit.C207_refuted"
   ],
   "note": "Proved if the batch has a result. A reference to the index just beyond the last node reads beyond the end of the table (witness)."
  },
  {
   "property": "C208",
   "status": "partial",
   "theorems": [
    "Verif.Symdeps.C208_partial",
    "Verif.Symdeps.C208_map",
    "Verif.Symdeps.C208_both",
    "Verif.Symdeps.C208_mask_lost",
    "Verif.Symdeps.C208_python_lost",
    "Verif.Symdeps.C208_python_empty",
    "Verif.Symdeps.C208_refuted"
   ],
   "note": "Proved where the definition does not have both dependencies and a mask, lists from Python are not empty, and records are refused only while the node's dependencies are those of its record and no mask was given. False otherwise (witnesses)."
  },
  {
   "property": "C209",
   "status": "partial",
   "theorems": [
    "Verif.DVec.C209_partial",
    "Verif.DVec.C209_refuted",
    "Verif.DVec.C209_refuted_scalar"
   ],
   "note": "Proved for all sequences of operations that make no vectors of size 0 and do not resize scalars to size 1. False of the code otherwise (witnesses)."
  },
  {
   "property": "C210",
   "status": "partial",
   "theorems": [
    "Verif.ModRes.C210_partial",
    "Verif.ModRes.C210_none",
    "Verif.ModRes.C210_refuted",
    "Verif.ModRes.C210_single",
    "Verif.ModRes.C210_axes"
   ],
   "note": "Proved for all histories in which earlier requests had at least as many cells as are to be joined. False otherwise (witness); other axes are lost; a single number of cells is undefined."
  },
  {
   "property": "C211",
   "status": "partial",
   "theorems": [
    "Verif.Resample.C211_partial",
    "Verif.Resample.C211_refuted",
    "Verif.Resample.C211_counts",
    "Verif.Resample.C211_split"
   ],
   "note": "Proved for all cells and values if the numbers of cells differ, one old cell is not divided and the values are not constant. False in the other cases (witnesses; dividing one cell is undefined for all cells and values)."
  },
  {
   "property": "C212",
   "status": "partial",
   "theorems": [
    "Verif.Resample.C212_partial",
    "Verif.Resample.C212_refuted",
    "Verif.Resample.C212_single"
   ],
   "note": "Proved for all cells, values, flags and policies, with old cells that end where the new one starts counted as well. False without them (witness); flags of values with one row or column are ignored (witness)."
  },
  {
   "property": "C213",
   "status": "proved",
   "theorems": [
    "Verif.Psv.C213_main",
    "Verif.Psv.C213_disagree"
   ],
   "note": "For all children of the documented dimensions, all numbers of sources and of pairs of Jones terms, over any commutative ring and for any exponent, smearing and shape functions."
  },
  {
   "property": "C214",
   "status": "partial",
   "theorems": [
    "Verif.Psv.C214_partial",
    "Verif.Psv.C214_refuted",
    "Verif.Psv.C214_uvw",
    "Verif.Psv.C214_order",
    "Verif.Psv.C214_brightness"
   ],
   "note": "Proved for every parameter that does not change uvw, does not change brightness when there are no Jones terms, and is not preceded by one that changes an earlier product. False in each of these three cases (witnesses)."
  },
  {
   "property": "C215",
   "status": "partial",
   "theorems": [
    "Verif.Psv.C215_partial",
    "Verif.Psv.C215_three",
    "Verif.Psv.C215_refuted"
   ],
   "note": "False: with three children the node always fails. Proved for a child of one element in place of the shapes."
  },
  {
   "property": "C216",
   "status": "partial",
   "theorems": [
    "Verif.MpiWire.C216_main",
    "Verif.MpiWire.C216_header",
    "Verif.MpiWire.C216_truncated",
    "Verif.MpiWire.C216_partial",
    "Verif.MpiWire.C216_refuted"
   ],
   "note": "Round trip, size of the buffer and refusal of truncated messages hold for all headers and objects. That no malformed message is read past its end is false for sizes of 2^31 and more (witness), and proved for those below."
  },
  {
   "property": "C217",
   "status": "proved",
   "theorems": [
    "Verif.MTPool.C217_main"
   ],
   "note": "For any number of processes and all histories of calls, thread steps and outcomes of nodes."
  },
  {
   "property": "C218",
   "status": "partial",
   "theorems": [
    "Verif.MTPool.C218_partial",
    "Verif.MTPool.C218_ends",
    "Verif.MTPool.C218_errors",
    "Verif.MTPool.C218_shown",
    "Verif.MTPool.C218_refuted",
    "Verif.MTPool.C218_refuted_unknown"
   ],
   "note": "False for processCommand and for calls that fail in a communicator thread, e.g. for unknown nodes (witnesses). Proved for all others; all reports of errors arrive."
  },
  {
   "property": "C219",
   "status": "partial",
   "theorems": [
    "Verif.MTPool.C219_main",
    "Verif.MTPool.C219_refuted"
   ],
   "note": "Proved for setState, for all histories in which the calls are for existing nodes and do not throw. False for the other commands without a reply, which the receiver ignores (witness)."
  },
  {
   "property": "C220",
   "status": "partial",
   "theorems": [
    "Verif.Server.C220_replies_partial",
    "Verif.Server.C220_order",
    "Verif.Server.C220_once",
    "Verif.Server.C220_direct",
    "Verif.Server.C220_queue",
    "Verif.Server.C220_other",
    "Verif.Server.C220_next",
    "Verif.Server.C220_refuted"
   ],
   "note": "For all histories of well-formed events and all schedules of the two threads. False for commands that wait when the server is halted: they get no reply (witness)."
  },
  {
   "property": "C221",
   "status": "partial",
   "theorems": [
    "Verif.Server.C221_survives_partial",
    "Verif.Server.C221_refuted",
    "Verif.Server.C221_refuted_types"
   ],
   "note": "Proved for well-formed events. False for the event Command without a name, and for records with fields of a wrong type (witnesses)."
  },
  {
   "property": "C222",
   "status": "proved",
   "theorems": [
    "Verif.Server.C222_state"
   ],
   "note": "For all histories of well-formed events and all schedules."
  },
  {
   "property": "C223",
   "status": "partial",
   "theorems": [
    "Verif.Server.C223_abort_partial",
    "Verif.Server.C223_no_leak",
    "Verif.Server.C223_refuted"
   ],
   "note": "Proved once the execution has cleared the flag at its start, and that old requests do not leak into it. False for a request between the announcement of the execution and the clearing (witness)."
  },
  {
   "property": "C224",
   "status": "partial",
   "theorems": [
    "Verif.Server.C224_unchanged_partial",
    "Verif.Server.C224_list",
    "Verif.Server.C224_refuted"
   ],
   "note": "Proved when no change falls between the copy of the list and the reading of its number, and for fewer than 2^31 - 2 changes. False otherwise (witness)."
  },
  {
   "property": "C225",
   "status": "partial",
   "theorems": [
    "Verif.MsChan.C225_rows",
    "Verif.MsChan.C225_once",
    "Verif.MsChan.C225_found_partial",
    "Verif.MsChan.C225_slot_partial",
    "Verif.MsChan.C225_tiles",
    "Verif.MsChan.C225_served_partial",
    "Verif.MsChan.C225_empty",
    "Verif.MsChan.C225_refuted",
    "Verif.MsChan.C225_incr"
   ],
   "note": "Soundness, uniqueness and shape for all sets and selections; completeness when all timeslots are read, for rows that are the only ones of their baseline and time. False for duplicates (witness); with an increment of time reading can fail (witness)."
  },
  {
   "property": "C226",
   "status": "partial",
   "theorems": [
    "Verif.MsChan.C226_pieces_partial",
    "Verif.MsChan.C226_opened_partial",
    "Verif.MsChan.C226_refuted",
    "Verif.MsChan.C226_unsorted"
   ],
   "note": "Proved for wanted rows in order of time and all timeslots read; no write outside of memory when two rows share a time. False for one row per tile (witness) and for tables not in order (witness)."
  },
  {
   "property": "C227",
   "status": "partial",
   "theorems": [
    "Verif.MsChan.C227_range_partial",
    "Verif.MsChan.C227_given",
    "Verif.MsChan.C227_ends",
    "Verif.MsChan.C227_refuted",
    "Verif.MsChan.C227_before"
   ],
   "note": "Proved unless a limit is the number of channels, or the last one lies before the first channel; false there (witnesses)."
  },
  {
   "property": "C228",
   "status": "proved",
   "theorems": [
    "Verif.MsChan.C228_write",
    "Verif.MsChan.C228_same"
   ],
   "note": "For all tables, tiles and ranges of channels within the data, in either order."
  },
  {
   "property": "C229",
   "status": "partial",
   "theorems": [
    "Verif.MsChan.C229_flagged_partial",
    "Verif.MsChan.C229_row",
    "Verif.MsChan.C229_bits",
    "Verif.MsChan.C229_legacy",
    "Verif.MsChan.C229_kept",
    "Verif.MsChan.C229_read",
    "Verif.MsChan.C229_refuted"
   ],
   "note": "For all masks and flags. False when BITFLAG is used but not written: flags of cells do not get to FLAG (witness)."
  },
  {
   "property": "C230",
   "status": "partial",
   "theorems": [
    "Verif.MsSeq.C230_same_partial",
    "Verif.MsSeq.C230_write_partial",
    "Verif.MsSeq.C230_read_partial",
    "Verif.MsSeq.C230_refuted",
    "Verif.MsSeq.C230_outside"
   ],
   "note": "Proved when tiles of another number have later rows of the table, so for tables in order of time. False otherwise: rows of earlier tiles are written again with other data (witness), or from a tile that does not exist (witness)."
  },
  {
   "property": "C231",
   "status": "proved",
   "theorems": [
    "Verif.EventMux.C231_get",
    "Verif.EventMux.C231_once",
    "Verif.EventMux.C231_order",
    "Verif.EventMux.C231_stopped"
   ],
   "note": "For all channels, arrivals at any place of the queue and histories of getEvent without hasEvent (see C232)."
  },
  {
   "property": "C232",
   "status": "partial",
   "theorems": [
    "Verif.EventMux.C232_answer",
    "Verif.EventMux.C232_kept_partial",
    "Verif.EventMux.C232_refuted",
    "Verif.EventMux.C232_stale"
   ],
   "note": "The answer of hasEvent is right, and nothing is lost unless it has found an event. If it has, the event is taken from the queue and lost (witness); a new message at the same address is then lost as well (witness)."
  },
  {
   "property": "C233",
   "status": "partial",
   "theorems": [
    "Verif.EventMux.C233_bound_partial",
    "Verif.EventMux.C233_explicit",
    "Verif.EventMux.C233_prefix",
    "Verif.EventMux.C233_received",
    "Verif.EventMux.C233_refuted"
   ],
   "note": "Ids for all maps and events, and their way back through a channel with the same prefix. An event disabled in the map is said to be bound although it is not posted (witness)."
  },
  {
   "property": "C234",
   "status": "partial",
   "theorems": [
    "Verif.EventMux.C234_order",
    "Verif.EventMux.C234_given",
    "Verif.EventMux.C234_mask_partial",
    "Verif.EventMux.C234_refuted"
   ],
   "note": "Order and completeness for all files and masks. The mask is ignored for an event that has just been read from the file (witness)."
  },
  {
   "property": "C235",
   "status": "proved",
   "theorems": [
    "Verif.Collect.C235_last",
    "Verif.Collect.C235_suffix",
    "Verif.Collect.C235_limit"
   ],
   "note": "For all histories of results, commands and limits."
  },
  {
   "property": "C236",
   "status": "proved",
   "theorems": [
    "Verif.Collect.C236_entries",
    "Verif.Collect.C236_aligned"
   ],
   "note": "For all results of children."
  },
  {
   "property": "C237",
   "status": "proved",
   "theorems": [
    "Verif.Collect.C237_joined",
    "Verif.Collect.C237_fails",
    "Verif.Collect.C237_checked",
    "Verif.Collect.C237_collected"
   ],
   "note": "For all plot records of children, with and without labels and attributes."
  },
  {
   "property": "C238",
   "status": "proved",
   "theorems": [
    "Verif.Collect.C238_raised",
    "Verif.Collect.C238_source",
    "Verif.Collect.C238_sources"
   ],
   "note": "For all histories of calls, one at a time; waiting itself is not modelled."
  },
  {
   "property": "C239",
   "status": "proved",
   "theorems": [
    "Verif.Locate.C239_pieces",
    "Verif.Locate.C239_joined",
    "Verif.Locate.C239_count"
   ],
   "note": "For all strings and separators."
  },
  {
   "property": "C240",
   "status": "proved",
   "theorems": [
    "Verif.Locate.C240_centers",
    "Verif.Locate.C240_shape"
   ],
   "note": "For all cells and axes."
  },
  {
   "property": "C241",
   "status": "partial",
   "theorems": [
    "Verif.Locate.C241_located_partial",
    "Verif.Locate.C241_refuted",
    "Verif.Locate.C241_five"
   ],
   "note": "Proved along the axes of the child's value, if it has one to four. False for the other axes of the cells, where no location is set (witness), and for values with more than four axes."
  },
  {
   "property": "C242",
   "status": "partial",
   "theorems": [
    "Verif.Patch.C242_inside_partial",
    "Verif.Patch.C242_refuted"
   ],
   "note": "Proved if some source has l other than 0 and some source has m other than 0. Otherwise the spacing of pixels is 0 and a NaN is converted to an integer (witness)."
  },
  {
   "property": "C243",
   "status": "partial",
   "theorems": [
    "Verif.Patch.C243_shown_partial",
    "Verif.Patch.C243_only",
    "Verif.Patch.C243_refuted"
   ],
   "note": "A source further than a pixel from the others is shown with its own value, and nothing else is shown. Of sources in the same pixel only the last is shown, so the sum is wrong (witness)."
  },
  {
   "property": "C244",
   "status": "partial",
   "theorems": [
    "Verif.PolcLog.C244_log_partial",
    "Verif.PolcLog.C244_refuted",
    "Verif.PolcLog.C244_scales"
   ],
   "note": "Proved for grids between their first and last coordinate, with a list of scales. Other grids may have negative coordinates whose logarithm is taken (witness); without a list of scales an uninitialized scale is used."
  },
  {
   "property": "C245",
   "status": "partial",
   "theorems": [
    "Verif.PolcLog.C245_ends_partial",
    "Verif.PolcLog.C245_refuted"
   ],
   "note": "Proved if logarithms can be taken at the ends of all axes with a scale. If not, the other axis gets a wrong offset and scale (witness)."
  }
 ]
}