{
 "claims": [
  {
   "property": "C01",
   "status": "proved",
   "theorems": [
    "Verif.CommonMath.increment_adds_one",
    "Verif.CommonMath.increment_at_max",
    "Verif.CommonMath.decrement_subtracts_one",
    "Verif.CommonMath.decrement_at_zero",
    "Verif.CommonMath.increment_decrement_empty"
   ],
   "note": ""
  },
  {
   "property": "C02",
   "status": "proved",
   "theorems": [
    "Verif.CommonMath.compareArray_numeric",
    "Verif.CommonMath.compareArray_empty"
   ],
   "note": ""
  },
  {
   "property": "C03",
   "status": "proved",
   "theorems": [
    "Verif.CommonMath.rightShift_divides",
    "Verif.CommonMath.leftShift_multiplies"
   ],
   "note": ""
  },
  {
   "property": "C04",
   "status": "proved",
   "theorems": [
    "Verif.CommonMath.setBit_exact",
    "Verif.CommonMath.clearBit_exact",
    "Verif.CommonMath.isBitSet_exact",
    "Verif.CommonMath.numContiguousInArray_exact",
    "Verif.CommonMath.setNextBit_exact",
    "Verif.CommonMath.setNextBitEvenCount_exact",
    "Verif.CommonMath.setNextBitOddCount_exact",
    "Verif.CommonMath.numBitsSetInArray_exact",
    "Verif.CommonMath.numBitsSetBeforeIndex_exact"
   ],
   "note": ""
  },
  {
   "property": "C05",
   "status": "proved",
   "theorems": [
    "Verif.BufferUtil.copyAll_window",
    "Verif.BufferUtil.copyAll_bounded",
    "Verif.BufferUtil.bufferCopy_count"
   ],
   "note": ""
  },
  {
   "property": "C06",
   "status": "proved",
   "theorems": [
    "Verif.BufferUtil.compare_iff_equal",
    "Verif.BufferUtil.compare_constant_trace",
    "Verif.BufferUtil.compareNull_exact"
   ],
   "note": ""
  },
  {
   "property": "C07",
   "status": "proved",
   "theorems": [
    "Verif.BufferUtil.reverse_eq",
    "Verif.BufferUtil.reverse_involution",
    "Verif.BufferUtil.reverseCopy_eq"
   ],
   "note": ""
  },
  {
   "property": "C08",
   "status": "proved",
   "theorems": [
    "Verif.Asn1.encodeInteger_exact",
    "Verif.Asn1.integer_roundtrip",
    "Verif.Asn1.decodeInteger_sound",
    "Verif.Asn1.oid_roundtrip"
   ],
   "note": ""
  },
  {
   "property": "C09",
   "status": "partial",
   "theorems": [
    "Verif.Asn1.getItem_reads_in_bounds",
    "Verif.Asn1.getItem_outside_buffer",
    "Verif.Asn1.getItem_in_bounds_partial",
    "Verif.Asn1.decodeInteger_out_of_bounds",
    "Verif.Asn1.decodeInteger_oob_iff",
    "Verif.Asn1.encodedLength_bounded",
    "Verif.Asn1.encodedLength_wraps"
   ],
   "note": "The statement is false of the code: getItem_outside_buffer and decodeInteger_out_of_bounds are proved counterexamples (length field larger than the buffer; DER length exceeding the input). getItem_in_bounds_partial gives the condition under which it holds."
  },
  {
   "property": "C10",
   "status": "proved",
   "theorems": [
    "Verif.EccDer.sig_roundtrip",
    "Verif.EccDer.encodeSig_in_bounds",
    "Verif.EccDer.sig_max_length"
   ],
   "note": "The maximum for P-521 relies on the top bit of the 66-byte r and s being zero, which holds for values below the group order."
  },
  {
   "property": "C11",
   "status": "proved",
   "theorems": [
    "Verif.EccDer.privateKey_roundtrip",
    "Verif.EccDer.encodePriv_in_bounds",
    "Verif.EccDer.encodePriv_max_length",
    "Verif.EccDer.publicKey_roundtrip",
    "Verif.EccDer.encodePub_in_bounds",
    "Verif.EccDer.encodePub_max_length"
   ],
   "note": ""
  },
  {
   "property": "C12",
   "status": "partial",
   "theorems": [
    "Verif.EccDer.decodePub_in_bounds",
    "Verif.EccDer.decodeSig_in_bounds",
    "Verif.EccDer.decodePriv_overreads",
    "Verif.EccDer.decodePriv_in_bounds_partial"
   ],
   "note": "Holds for public keys and signatures. False for private keys: decodePriv_overreads is a proved counterexample (length is not adjusted for the skipped zero byte); decodePriv_in_bounds_partial bounds the overread by one byte."
  },
  {
   "property": "C13",
   "status": "proved",
   "theorems": [
    "Verif.Base64.decode_encodeBody",
    "Verif.Base64.encodeBody_length",
    "Verif.Base64.encode_exact",
    "Verif.Base64.encode_size_check_wraps"
   ],
   "note": "encode_exact needs length < 2^30; encode_size_check_wraps shows the size check wraps on a 32-bit size_t from 1 GiB on."
  },
  {
   "property": "C14",
   "status": "proved",
   "theorems": [
    "Verif.AesKeyWrap.wrap_rfc3394",
    "Verif.AesKeyWrap.unwrap_wrap",
    "Verif.AesKeyWrap.unwrapPadded_wrapPadded",
    "Verif.AesKeyWrap.wrap_accepts",
    "Verif.AesKeyWrap.unwrap_accepts"
   ],
   "note": ""
  },
  {
   "property": "C15",
   "status": "proved",
   "theorems": [
    "Verif.AesKeyWrap.unwrap_failure_zeroes",
    "Verif.AesKeyWrap.unwrapPadded_failure_zeroes",
    "Verif.AesKeyWrap.wrap_failure_zeroes",
    "Verif.AesKeyWrap.unwrap_success_genuine",
    "Verif.AesKeyWrap.unwrapPadded_success_genuine"
   ],
   "note": ""
  },
  {
   "property": "C16",
   "status": "proved",
   "theorems": [
    "Verif.Kdf.counterMode_sp800_108",
    "Verif.Kdf.counterMode_zero_length",
    "Verif.Kdf.counterMode_defined",
    "Verif.Kdf.hkdfExpand_rfc5869",
    "Verif.Kdf.hkdfExpand_refused"
   ],
   "note": "counterMode_zero_length: for a zero key length the C function returns an uninitialised status."
  },
  {
   "property": "C17",
   "status": "proved",
   "theorems": [
    "Verif.Checksum.crc_remainder",
    "Verif.Checksum.crc_detects_burst",
    "Verif.Checksum.crc8_value",
    "Verif.Checksum.update_append"
   ],
   "note": ""
  },
  {
   "property": "C18",
   "status": "proved",
   "theorems": [
    "Verif.Mctp.packet_roundtrip",
    "Verif.Mctp.construct_rejects",
    "Verif.Mctp.wrong_pec_rejected",
    "Verif.Mctp.payload_burst_rejected",
    "Verif.Mctp.interpret_in_bounds"
   ],
   "note": ""
  },
  {
   "property": "C19",
   "status": "proved",
   "theorems": [
    "Verif.Mctp.packets_of_message",
    "Verif.Mctp.split_packets",
    "Verif.Mctp.request_delivered",
    "Verif.Mctp.response_delivered"
   ],
   "note": ""
  },
  {
   "property": "C20",
   "status": "proved",
   "theorems": [
    "Verif.Mctp.only_complete_messages",
    "Verif.Mctp.request_size",
    "Verif.Mctp.response_fits",
    "Verif.Mctp.response_expected",
    "Verif.Mctp.response_only_when_waiting"
   ],
   "note": ""
  },
  {
   "property": "C21",
   "status": "partial",
   "theorems": [
    "Verif.Mctp.Race.late_response_faults",
    "Verif.Mctp.Race.late_response_misdelivered",
    "Verif.Mctp.Race.late_response_partial"
   ],
   "note": "False of the code: late_response_faults and late_response_misdelivered are proved counterexamples (check and use in different critical sections). late_response_partial: holds if the requester makes no step between the check and the handling."
  },
  {
   "property": "C22",
   "status": "proved",
   "theorems": [
    "Verif.LoggingMemory.log_keeps_newest",
    "Verif.LoggingMemory.read_in_pieces",
    "Verif.LoggingMemory.copy_passes_entries"
   ],
   "note": ""
  },
  {
   "property": "C23",
   "status": "partial",
   "theorems": [
    "Verif.LoggingMemory.restart_recovers_partial",
    "Verif.LoggingMemory.restart_reuses_ids"
   ],
   "note": "Entries, order and next id are recovered, except the next id of an emptied log: restart_reuses_ids is a proved counterexample (clear keeps the id counter, a restart resets it)."
  },
  {
   "property": "C24",
   "status": "proved",
   "theorems": [
    "Verif.StateManager.damaged_entry_reads_back",
    "Verif.StateManager.boot_outvotes_damage"
   ],
   "note": ""
  },
  {
   "property": "C25",
   "status": "partial",
   "theorems": [
    "Verif.StateManager.boot_restores_partial",
    "Verif.StateManager.crash_old_or_new_partial",
    "Verif.StateManager.torn_write_partial",
    "Verif.StateManager.store_retry_succeeds",
    "Verif.StateManager.torn_write_loses_state",
    "Verif.StateManager.torn_erase_restores_stale_state",
    "Verif.StateManager.refresh_erase_failure_loses_state"
   ],
   "note": "Proved for power loss between flash operations, and inside a write once half the entry is programmed. The full property is false of the code: three proved counterexamples (torn write of 1-3 bytes, torn erase, failed erase after a refresh)."
  },
  {
   "property": "C26",
   "status": "proved",
   "theorems": [
    "Verif.HostState.settings_independent",
    "Verif.HostState.exec_status",
    "Verif.HostState.exec_refused",
    "Verif.HostState.settings_survive_reboot",
    "Verif.HostState.exec_keeps_blank_flags",
    "Verif.HostState.system_manifests_independent",
    "Verif.HostState.system_save_refused",
    "Verif.HostState.system_restore_default"
   ],
   "note": ""
  },
  {
   "property": "C27",
   "status": "proved",
   "theorems": [
    "Verif.Flash.copy_exact",
    "Verif.Flash.program_exact",
    "Verif.Flash.program_verify_exact",
    "Verif.Flash.erase_exact",
    "Verif.Flash.verify_copy_exact",
    "Verif.Flash.hash_regions_exact",
    "Verif.Flash.copy_succeeds"
   ],
   "note": "For every page, sector and block size, every length and every pattern of driver failures (failed writes and erases leave junk). A copy that neither erases nor verifies is exact only on a blank destination, as documented. Ranges inside the 32-bit address space."
  },
  {
   "property": "C28",
   "status": "proved",
   "theorems": [
    "Verif.Flash.check_copy_exact",
    "Verif.Flash.check_copy_wraps"
   ],
   "note": "Exact for ranges inside the 32-bit address space; check_copy_wraps shows that condition is needed."
  },
  {
   "property": "C29",
   "status": "partial",
   "theorems": [
    "Verif.FlashStore.stored_until_changed",
    "Verif.FlashStore.read_fits",
    "Verif.FlashStore.plain_roundtrip",
    "Verif.FlashStore.hash_roundtrip",
    "Verif.FlashStore.encrypted_roundtrip",
    "Verif.FlashStore.wrapped_roundtrip",
    "Verif.FlashStore.hash_checked",
    "Verif.FlashStore.other_blocks_unaffected",
    "Verif.FlashStore.erased_is_empty",
    "Verif.FlashStore.interrupted_write_is_empty",
    "Verif.FlashStore.each_page_once",
    "Verif.FlashStore.write_succeeds",
    "Verif.FlashStore.init_ok",
    "Verif.FlashStore.aggregate_iff",
    "Verif.FlashStore.aggregate_none",
    "Verif.FlashStore.old_header_loses_data",
    "Verif.FlashStore.init_wraps",
    "Verif.FlashStore.init_down_beyond"
   ],
   "note": "Round trips are proved for every page and sector size, data string and pattern of driver failures, for the plain, hashed, encrypted and key wrapping stores, after any operations on other blocks. False for stores with length-only headers and lengths 0xa500..0xa5ff (old_header_loses_data), hence partial. Set-up accepts regions that wrap the address space (init_wraps) or leave the device (init_down_beyond)."
  },
  {
   "property": "C30",
   "status": "partial",
   "theorems": [
    "Verif.Flash.updater_confined",
    "Verif.Flash.write_confined",
    "Verif.Flash.update_content",
    "Verif.Flash.update_not_limited_by_announced_length",
    "Verif.Flash.offset_beyond_region_escapes"
   ],
   "note": "Confinement to the region, bookkeeping and content are proved for every history. 'Never accepts more than it was prepared for' is false of the code (update_not_limited_by_announced_length): writes are limited by the region only. An offset larger than the region wraps (offset_beyond_region_escapes)."
  },
  {
   "property": "C31",
   "status": "partial",
   "theorems": [
    "Verif.Heap.live_disjoint_partial",
    "Verif.Heap.contents_kept_partial",
    "Verif.Heap.null_means_full",
    "Verif.Heap.free_then_alloc",
    "Verif.Heap.all_freed",
    "Verif.Heap.calloc_zero",
    "Verif.Heap.realloc_contents",
    "Verif.Heap.huge_leaves_arena",
    "Verif.Heap.huge_rounds_to_nothing"
   ],
   "note": "For every history of allocate, calloc, realloc and free calls and user writes into live blocks, on a pointer-level model of both linked lists. Missing: requests within 20 bytes of 4 GiB, for which the property is false of the code (huge_leaves_arena, huge_rounds_to_nothing: size computations wrap)."
  },
  {
   "property": "C32",
   "status": "partial",
   "theorems": [
    "Verif.KeyCache.session_fifo",
    "Verif.KeyCache.session_once",
    "Verif.KeyCache.handed_once_partial",
    "Verif.KeyCache.handed_twice",
    "Verif.KeyCache.handed_twice_reset",
    "Verif.KeyCache.full_add_stops",
    "Verif.KeyCache.ids_wrap"
   ],
   "note": "Within a session the cache is a bounded FIFO for every history of calls and flash failures and hands out no key twice. Over resets and new scans each key is handed out once if erasing works (handed_once_partial); false if an erase fails while a key is removed (handed_twice). A full cache is taken out of service by a further add (full_add_stops)."
  },
  {
   "property": "C33",
   "status": "partial",
   "theorems": [
    "Verif.KeyCache.few_usable_partial",
    "Verif.KeyCache.error_means_few",
    "Verif.KeyCache.error_refuses",
    "Verif.KeyCache.one_short"
   ],
   "note": "Two or more sectors too few are always reported, there are no false alarms, and a cache in error refuses every call. Exactly one sector too few can go unnoticed: one_short."
  },
  {
   "property": "C34",
   "status": "proved",
   "theorems": [
    "Verif.Observable.notified_once",
    "Verif.Observable.observers_nodup",
    "Verif.Observable.no_leak"
   ],
   "note": "Pointer-level model of the linked list; every history of registrations, removals and events, with allocation failures."
  },
  {
   "property": "C35",
   "status": "proved",
   "theorems": [
    "Verif.Pcr.constant_fixed",
    "Verif.Pcr.update_digest_iff",
    "Verif.Pcr.const_update_sets",
    "Verif.Pcr.update_buffer_digest",
    "Verif.Pcr.run_wf",
    "Verif.Pcr.constant_event_changes"
   ],
   "note": "For every history of calls and hash failures, calls being atomic. The event type of a constant measurement, which may be part of what was measured, can still be changed (constant_event_changes); the property as stated does not cover it."
  },
  {
   "property": "C36",
   "status": "proved",
   "theorems": [
    "Verif.Pcr.compute_chain",
    "Verif.Pcr.compute_small"
   ],
   "note": "For every bank, digest content, hash function and failure of the hash engine."
  },
  {
   "property": "C37",
   "status": "partial",
   "theorems": [
    "Verif.Pcr.data_window_partial",
    "Verif.Pcr.data_hash_partial",
    "Verif.Pcr.data_length_partial",
    "Verif.Pcr.empty_flash_leak"
   ],
   "note": "For values, memory, flash and callbacks, every offset and length, with or without read failures. Missing: flash data of length zero, for which the property is false (empty_flash_leak: reading behind the start returns flash content that was not measured)."
  },
  {
   "property": "C38",
   "status": "proved",
   "theorems": [
    "Verif.Pcr.tcg_log_window",
    "Verif.Pcr.tcg_log_chunks"
   ],
   "note": "For every store, offset, length and list of chunk sizes, for measured data that denotes a byte string (which excludes the empty flash range of C37)."
  },
  {
   "property": "C39",
   "status": "proved",
   "theorems": [
    "Verif.Pcr.attestation_log_window",
    "Verif.Pcr.attestation_log_size",
    "Verif.Pcr.attestation_log_chunks",
    "Verif.Pcr.last_entry_value"
   ],
   "note": "For every store, offset, length, list of chunk sizes and hash failure. The store must not be changed by others between chunks."
  },
  {
   "property": "C40",
   "status": "partial",
   "theorems": [
    "Verif.Pcr.bad_index_refused_partial",
    "Verif.Pcr.bad_index_query",
    "Verif.Pcr.no_oob_partial",
    "Verif.Pcr.store_dispatch",
    "Verif.Pcr.bad_index_reads"
   ],
   "note": "Every entry point but the updates that include the event type, which read outside the bank before the index is checked (bad_index_reads)."
  },
  {
   "property": "C41",
   "status": "proved",
   "theorems": [
    "Verif.ManifestManager.flash_ops_unused",
    "Verif.ManifestManager.boot_erase_only_empty",
    "Verif.ManifestManager.refs_are_handles"
   ],
   "note": "For every history of calls, restarts, flash failures and contents, calls one after the other. Clearing everything (a call of its own, or an empty manifest found at start) also erases the active region, after marking it invalid and only if unreferenced."
  },
  {
   "property": "C42",
   "status": "proved",
   "theorems": [
    "Verif.ManifestManager.replaced_by_newer",
    "Verif.ManifestManager.ids_monotone",
    "Verif.ManifestManager.current_good",
    "Verif.ManifestManager.verified_pending_follows",
    "Verif.ManifestManager.post_verify_failure_activates",
    "Verif.ManifestManager.lost_setting_reverts"
   ],
   "note": "For every history of calls and restarts that keep the stored setting of the active region; lost_setting_reverts shows that this is needed. A failing post_verify hook does not prevent activation (post_verify_failure_activates)."
  },
  {
   "property": "C43",
   "status": "partial",
   "theorems": [
    "Verif.ManifestManager.handles_covered_partial",
    "Verif.ManifestManager.handle_without_reference",
    "Verif.ManifestManager.reference_without_handle",
    "Verif.ManifestManager.lost_reference_permanent"
   ],
   "note": "Proved if no other call changes the validity of a region between the two looks at it. Without this the property is false of the code, in both directions."
  },
  {
   "property": "C44",
   "status": "proved",
   "theorems": [
    "Verif.ManifestVerification.accepted_by_endorsed",
    "Verif.ManifestVerification.accepted_iff",
    "Verif.ManifestVerification.never_undefined",
    "Verif.ManifestVerification.revoked_only_by_default",
    "Verif.ManifestVerification.revoked_this_boot",
    "Verif.ManifestVerification.revoked_for_ever",
    "Verif.ManifestVerification.stored_is_floor",
    "Verif.ManifestVerification.update_means_saved",
    "Verif.ManifestVerification.unsaved_comes_back"
   ],
   "note": "For every history of verifications, activations, firmware updates and restarts with any firmware, with failing cryptography and keystore. For the part after a restart a later failing save must leave the old or the new key in the keystore; unsaved_comes_back shows that the condition on saving is needed."
  },
  {
   "property": "C45",
   "status": "proved",
   "theorems": [
    "Verif.ManifestFlash.digest_covers_all",
    "Verif.ManifestFlash.digest_of_flash",
    "Verif.ManifestFlash.parsed_is_signed",
    "Verif.ManifestFlash.verify_ends",
    "Verif.ManifestFlash.unverified_unreadable",
    "Verif.ManifestFlash.v1_header_unsigned"
   ],
   "note": "For every layout, with a flash that may change at every access and fail at any of them. The device must refuse reads beyond its end, be smaller than 4 GiB and give all its bytes: the differences of addresses in the code can be negative, and only that read failure stops them. v1_header_unsigned: for manifests of the first version the header in use is a copy read before the signed one."
  },
  {
   "property": "C46",
   "status": "proved",
   "theorems": [
    "Verif.ManifestFlash.element_authentic",
    "Verif.ManifestFlash.unhashed_unprotected"
   ],
   "note": "For every flash content at verification and at read time. The manifest that was signed must have the right hashes in it (Honest), and the messages hashed by the reader must not collide with parts of it. Elements without a hash are not protected (unhashed_unprotected)."
  },
  {
   "property": "C47",
   "status": "proved",
   "theorems": [
    "Verif.AuthToken.granted_carries_active",
    "Verif.AuthToken.single_use",
    "Verif.AuthToken.no_replay",
    "Verif.AuthToken.challenge_made_from",
    "Verif.AuthToken.honest_granted",
    "Verif.AuthToken.no_overread"
   ],
   "note": "For every history of requests to any number of operations and challenge handlers, with failures of the random generator, the timer and the engines. Requests to one handler are one after the other (it holds its lock). no_replay assumes that no nonce repeats."
  },
  {
   "property": "C48",
   "status": "partial",
   "theorems": [
    "Verif.AuthToken.data_signed_partial",
    "Verif.AuthToken.global_data_signed",
    "Verif.AuthToken.data_unsigned"
   ],
   "note": "Proved for an authority that signs only messages with a truthful header, and without condition for signed data without a token. In general the property is false of the code: the token length of the header is not compared with the token (data_unsigned)."
  },
  {
   "property": "C49",
   "status": "proved",
   "theorems": [
    "Verif.SessionManager.iv_never_repeats",
    "Verif.SessionManager.own_half",
    "Verif.SessionManager.exhausted_refused"
   ],
   "note": "For every history of session operations with failing engines. The keys derived in the history must be different (a property of the key derivation and the random numbers); this includes keys of failed key exchanges and of pairing."
  },
  {
   "property": "C50",
   "status": "proved",
   "theorems": [
    "Verif.SessionManager.one_session",
    "Verif.SessionManager.others_untouched",
    "Verif.SessionManager.encrypt_needs_session",
    "Verif.SessionManager.decrypt_needs_session",
    "Verif.SessionManager.session_origin",
    "Verif.SessionManager.established_origin",
    "Verif.SessionManager.gone_only_by_reset"
   ],
   "note": "For every history, or every state and operation. A message shorter than a header is passed on unencrypted (see DESIGN.md); the theorems about encryption are for messages of at least 5 bytes."
  },
  {
   "property": "C51",
   "status": "partial",
   "theorems": [
    "Verif.Counters.get_exact",
    "Verif.Counters.increment_partial",
    "Verif.Counters.increment_wraps",
    "Verif.Counters.counters_count_partial",
    "Verif.Counters.own_counter_partial",
    "Verif.Counters.never_overcounts_partial",
    "Verif.Counters.lost_update"
   ],
   "note": "Sequential counting proved below the largest value (there the counter wraps to 0, increment_wraps). Two tasks that increment the same counter at the same time can lose an update (lost_update); proved for every interleaving: a counter that only one task works on counts exactly, also when others work on the counter in the other half of the register (own_counter_partial), and without clearing no counter exceeds the number of increments (never_overcounts_partial)."
  },
  {
   "property": "C52",
   "status": "proved",
   "theorems": [
    "Verif.CmdChannel.transactions",
    "Verif.CmdChannel.processed_iff"
   ],
   "note": "For every stream of received packets, with failed receive calls anywhere."
  },
  {
   "property": "C53",
   "status": "proved",
   "theorems": [
    "Verif.CmdMsg.inside_step",
    "Verif.CmdMsg.stays_inside",
    "Verif.CmdMsg.headers_payload_kept",
    "Verif.CmdMsg.remove_add",
    "Verif.CmdMsg.layers",
    "Verif.CmdMsg.setMax_lowers"
   ],
   "note": "Callers must keep to the space for a response (Allowed): cmd_interface_msg_add_payload_data and _set_message_payload_length do not check it."
  },
  {
   "property": "C54",
   "status": "proved",
   "theorems": [
    "Verif.ConfigReset.success_cleared",
    "Verif.ConfigReset.failure_reported",
    "Verif.ConfigReset.false_alarm",
    "Verif.ConfigReset.reset_request"
   ],
   "note": "For every configuration and failure pattern; the managers do not return CONFIG_RESET_NO_MANIFESTS, a code of the reset module itself."
  },
  {
   "property": "C55",
   "status": "proved",
   "theorems": [
    "Verif.Hmac.hmac_rfc2104",
    "Verif.Hmac.hmac_releases",
    "Verif.Hmac.extract_exact"
   ],
   "note": ""
  },
  {
   "property": "C56",
   "status": "partial",
   "theorems": [
    "Verif.Mctp.response_in_place_partial",
    "Verif.Mctp.usual_transmission_unit",
    "Verif.Mctp.response_in_place_corrupts"
   ],
   "note": "Proved for packet sizes of at least 64. False for smaller sizes, which a remote device can report: response_in_place_corrupts."
  },
  {
   "property": "C57",
   "status": "proved",
   "theorems": [
    "Verif.Pcr.sequential_ids",
    "Verif.Pcr.sequential_total"
   ],
   "note": "For every store."
  },
  {
   "property": "C58",
   "status": "partial",
   "theorems": [
    "Verif.SessionManager.roundtrip_partial",
    "Verif.SessionManager.header_only_refused"
   ],
   "note": "Proved for messages with at least one byte after the header. A message that is only a header is encrypted but refused as malformed by the decryption (header_only_refused)."
  },
  {
   "property": "C59",
   "status": "partial",
   "theorems": [
    "Verif.SessionManager.pairing_key_kept",
    "Verif.SessionManager.pairing_in_bounds_partial",
    "Verif.SessionManager.pairing_overflows",
    "Verif.SessionManager.pairing_honest",
    "Verif.SessionManager.session_origin"
   ],
   "note": "Memory safety is proved for key stores that hold no key longer than 32 bytes; pairing_overflows: a longer key is copied over the end of the buffer."
  },
  {
   "property": "C60",
   "status": "partial",
   "theorems": [
    "Verif.CmdChannel.in_order",
    "Verif.CmdChannel.no_overrun",
    "Verif.CmdChannel.not_mixed_partial",
    "Verif.CmdChannel.mixed"
   ],
   "note": "Proved for every interleaving: order, completeness and bounds. Messages are not mixed as long as the driver never reports a busy bus (not_mixed_partial); mixed is the counterexample otherwise."
  },
  {
   "property": "C61",
   "status": "partial",
   "theorems": [
    "Verif.FwUpdate.never_bricked_partial",
    "Verif.FwUpdate.never_stale",
    "Verif.FwUpdate.never_bricked_no_backup_partial",
    "Verif.FwUpdate.bricked_after_page_failure",
    "Verif.FwUpdate.bricked_by_stale_manifest"
   ],
   "note": "Proved for all histories in which queries of the page size do not fail and no key manifest is used after another image was loaded (which cannot happen without backup regions, never_stale). bricked_after_page_failure and bricked_by_stale_manifest are the counterexamples otherwise."
  },
  {
   "property": "C62",
   "status": "proved",
   "theorems": [
    "Verif.FwUpdate.only_acceptable",
    "Verif.FwUpdate.only_acceptable_no_revocation",
    "Verif.FwUpdate.success_installs"
   ],
   "note": "For every image format whose images are determined by as many bytes as their size."
  },
  {
   "property": "C63",
   "status": "partial",
   "theorems": [
    "Verif.FwUpdate.authorized_partial",
    "Verif.FwUpdate.staging_needs_digest",
    "Verif.FwUpdate.unauthorized_installed"
   ],
   "note": "Proved while a digest is set. run_update does not check that one is: after a failed prepare request (or a reset) the digest is forgotten while the image still counts as complete (unauthorized_installed)."
  },
  {
   "property": "C64",
   "status": "partial",
   "theorems": [
    "Verif.FwUpdate.revoked_after_both_partial",
    "Verif.FwUpdate.revoked_partial",
    "Verif.FwUpdate.not_revoked"
   ],
   "note": "Proved without backup regions. With one, the manifest of the old recovery image is used and nothing is revoked (not_revoked)."
  },
  {
   "property": "C65",
   "status": "partial",
   "theorems": [
    "Verif.HostFw.full_verification_sound",
    "Verif.HostFw.full_verification_reads_only",
    "Verif.HostFw.full_verification_ends_partial",
    "Verif.HostFw.full_verification_accepts_partial",
    "Verif.HostFw.boot_verification_sound",
    "Verif.HostFw.boot_verification_accepts",
    "Verif.HostFw.full_verification_rejects_overlap",
    "Verif.HostFw.full_verification_hangs_empty_region",
    "Verif.HostFw.full_verification_hangs_end_of_space"
   ],
   "note": "Soundness is proved without conditions on the layout. Acceptance needs regions that do not overlap (full_verification_rejects_overlap) and the end needs regions that are not empty and do not reach address 0xffffffff (the two _hangs_ theorems)."
  },
  {
   "property": "C66",
   "status": "partial",
   "theorems": [
    "Verif.HostFw.filter_sound",
    "Verif.HostFw.filter_all_sound",
    "Verif.HostFw.filter_exact_partial",
    "Verif.HostFw.filter_all_exact_partial",
    "Verif.HostFw.filter_all_ends_partial",
    "Verif.HostFw.filter_all_hangs_empty_region",
    "Verif.HostFw.filter_all_overlap_incomplete"
   ],
   "note": "Soundness (the host gets no other address) is proved without conditions. Completeness needs regions that do not overlap and at most 255 of them; the end needs regions that are not empty."
  },
  {
   "property": "C67",
   "status": "proved",
   "theorems": [
    "Verif.HostFw.version_exact",
    "Verif.HostFw.version_error"
   ],
   "note": "For identifiers that lie in the 32-bit address space."
  },
  {
   "property": "C68",
   "status": "partial",
   "theorems": [
    "Verif.HostFw.regions_different_exact_partial",
    "Verif.HostFw.sig_images_different_exact_partial",
    "Verif.HostFw.hash_images_different_exact_partial",
    "Verif.HostFw.images_kinds_differ",
    "Verif.HostFw.regions_different_misses_overlap",
    "Verif.HostFw.images_different_misses_long_hash",
    "Verif.HostFw.images_different_compares_junk"
   ],
   "note": "Proved for lists in which all hashes (signatures) have one length and regions do not overlap; counterexamples for both."
  },
  {
   "property": "C69",
   "status": "partial",
   "theorems": [
    "Verif.HostFw.migrate_frame",
    "Verif.HostFw.migrate_exact_partial",
    "Verif.HostFw.migrate_ends_partial",
    "Verif.HostFw.migrate_all_frame",
    "Verif.HostFw.migrate_all_exact_partial",
    "Verif.HostFw.restore_exact_partial",
    "Verif.HostFw.restore_ends_partial",
    "Verif.HostFw.restore_erases_neighbour",
    "Verif.HostFw.restore_read_write_exact_partial"
   ],
   "note": "Frames hold for proper regions. Exactness needs regions that do not overlap, and where several regions are erased one after the other, whole erase blocks (restore_erases_neighbour shows what happens otherwise)."
  },
  {
   "property": "C70",
   "status": "partial",
   "theorems": [
    "Verif.HostProc.runs_verified_partial",
    "Verif.HostProc.boot_runs_verified_partial",
    "Verif.HostProc.power_on_protects",
    "Verif.HostProc.failed_power_on_partial",
    "Verif.HostProc.failed_power_on_then_reset_runs_unverified",
    "Verif.HostProc.failed_power_on_looks_good",
    "Verif.HostProc.full_bypass_keeps_bypass",
    "Verif.HostProc.failed_activation_runs_other_pfm"
   ],
   "note": "Proved for all histories in which the host is released after a successful power-on. The counterexamples: a soft reset after a failed power-on releases a host whose flash failed verification; the full-bypass variant does not leave the bypass mode of the filter at power-on; a failed activation of a pending manifest is ignored. Verification itself is a parameter (C65-C68 are about it); assumed of it is that the short comparison with a known good manifest is sound."
  },
  {
   "property": "C71",
   "status": "proved",
   "theorems": [
    "Verif.HostProc.rollback_exact"
   ],
   "note": "Loops that retry forever may not have ended; then nothing is claimed."
  },
  {
   "property": "C72",
   "status": "partial",
   "theorems": [
    "Verif.HostProc.run_time_keeps_device_partial",
    "Verif.HostProc.reset_keeps_device",
    "Verif.HostProc.run_time_applies_update",
    "Verif.HostProc.next_actions_ignores_events"
   ],
   "note": "Proved if the host is configured to apply new firmware only at power-on (or resets). With the default setting a run-time verification switches flash devices at once (run_time_applies_update), and the announced actions disregard the setting (next_actions_ignores_events)."
  },
  {
   "property": "C73",
   "status": "partial",
   "theorems": [
    "Verif.HostFlash.validation_sound",
    "Verif.HostFlash.full_validation_sound_partial",
    "Verif.HostFlash.read_only_full_validation_partial",
    "Verif.HostFlash.full_validation_uses_freed_memory",
    "Verif.HostFlash.empty_pfm_validates_anything",
    "Verif.HostFlash.validation_accepts",
    "Verif.HostFlash.regions_sound"
   ],
   "note": "Full validation reads the blank byte from freed memory; it is proved only if freed memory keeps its content. A PFM without firmware validates any flash at a boot."
  },
  {
   "property": "C74",
   "status": "proved",
   "theorems": [
    "Verif.HostFlash.validation_frees",
    "Verif.HostFlash.known_validation_frees",
    "Verif.HostFlash.regions_frees",
    "Verif.HostFlash.free_regions_frees"
   ],
   "note": ""
  },
  {
   "property": "C75",
   "status": "partial",
   "theorems": [
    "Verif.HostFlash.known_validation_sound_partial",
    "Verif.HostFlash.known_good_skips_verification"
   ],
   "note": "Proved under the conditions under which images can be compared (disjoint regions, equal signature lengths), and only images that are the same as known ones, which were authentic when the known PFM was verified. The counterexample: images are compared to those of any version of the known PFM with the same identifier, so an image that was never verified is accepted."
  },
  {
   "property": "C76",
   "status": "proved",
   "theorems": [
    "Verif.HostFlash.Filter.filter_knows_devices",
    "Verif.HostFlash.Filter.filter_has_address_mode",
    "Verif.HostFlash.Filter.fixed_mode",
    "Verif.HostFlash.Filter.fixed_mode_exists"
   ],
   "note": "Assumes that the driver has noted the only mode of a device whose mode is fixed."
  },
  {
   "property": "C77",
   "status": "proved",
   "theorems": [
    "Verif.HostFlash.Filter.rot_access",
    "Verif.HostFlash.Filter.host_access",
    "Verif.HostFlash.Filter.has_access"
   ],
   "note": ""
  },
  {
   "property": "C78",
   "status": "partial",
   "theorems": [
    "Verif.SpiFlash.read_exact",
    "Verif.SpiFlash.write_exact",
    "Verif.SpiFlash.sectorErase_exact",
    "Verif.SpiFlash.blockErase_exact",
    "Verif.SpiFlash.chipErase_exact",
    "Verif.SpiFlash.huge_length_passes"
   ],
   "note": "Proved if address plus length fits into size_t. The bounds check computes the sum in size_t, so with 32 bits a huge length passes it (huge_length_passes)."
  },
  {
   "property": "C79",
   "status": "partial",
   "theorems": [
    "Verif.SpiFlash.history_expected_partial",
    "Verif.SpiFlash.switch_while_busy"
   ],
   "note": "Switching the address mode does not check that the device is idle; proved for histories that switch only while it is."
  },
  {
   "property": "C80",
   "status": "partial",
   "theorems": [
    "Verif.SpiFlash.history_in_sync",
    "Verif.SpiFlash.enable4_mode",
    "Verif.SpiFlash.detect_mode",
    "Verif.SpiFlash.reset_mode",
    "Verif.SpiFlash.restore_safe_partial",
    "Verif.SpiFlash.restore_loses_fixed_mode"
   ],
   "note": "Restoring a driver for a device that has addresses of 4 bytes only loses its mode, and nothing repairs it (restore_loses_fixed_mode). Proved for the others. Switching is proved for an idle device (see C79)."
  },
  {
   "property": "C81",
   "status": "partial",
   "theorems": [
    "Verif.Recovery.verify_ok_partial",
    "Verif.Recovery.verify_complete",
    "Verif.Recovery.apply_exact"
   ],
   "note": "Proved except for a signed image with a section whose length or host range is near 2^32, where the check of the order wraps."
  },
  {
   "property": "C82",
   "status": "partial",
   "theorems": [
    "Verif.Recovery.section_header_safe",
    "Verif.Recovery.header_safe_partial",
    "Verif.Recovery.verify_safe_partial",
    "Verif.Recovery.header_reads_outside",
    "Verif.Recovery.verify_hangs",
    "Verif.Recovery.version_terminated_partial",
    "Verif.Recovery.version_unterminated"
   ],
   "note": "False in general: an unsigned header without terminators is read beyond its end (header_reads_outside), a signed image with a section length of 2^32-16 makes verification loop forever (verify_hangs), a version in a header of an unknown format is not terminated (version_unterminated). Proved for headers of format 0 that are long enough and sections up to 2^30 bytes."
  },
  {
   "property": "C83",
   "status": "partial",
   "theorems": [
    "Verif.Recovery.active_verified",
    "Verif.Recovery.verified_intact_partial",
    "Verif.Recovery.getActive_exact",
    "Verif.Recovery.in_use_unchanged",
    "Verif.Recovery.activate_exact",
    "Verif.Recovery.active_only_activated",
    "Verif.Recovery.update_keeps_active",
    "Verif.Recovery.crash_keeps_image",
    "Verif.Recovery.get_active_race_leak",
    "Verif.Recovery.get_active_race_unheld",
    "Verif.Recovery.activation_not_saved",
    "Verif.Recovery.unchecked_data_stops_boot",
    "Verif.Recovery.image_larger_than_region"
   ],
   "note": "Proved for operations that do not overlap, and for images that fit their region. Getting the active image is not atomic (get_active_race_leak, get_active_race_unheld); an image can be larger than its region (image_larger_than_region); an activation is lost if the host state is not saved (activation_not_saved); data written but never activated can keep the manager from starting (unchecked_data_stops_boot)."
  },
  {
   "property": "C84",
   "status": "partial",
   "theorems": [
    "Verif.Recovery.measured_exact",
    "Verif.Recovery.measure_no_effect",
    "Verif.Recovery.told_exact_partial",
    "Verif.Recovery.erase_in_use_told_wrong"
   ],
   "note": "The measured data is proved in full. Observers are told a wrong value if erasing everything fails because the image is in use (erase_in_use_told_wrong)."
  },
  {
   "property": "C85",
   "status": "partial",
   "theorems": [
    "Verif.Protocol.requests_touch_only_their_buffer_partial",
    "Verif.Protocol.tiny_size_overruns",
    "Verif.Protocol.negotiated_overrun",
    "Verif.Protocol.unterminated_id_reads_leftovers",
    "Verif.Protocol.short_unseal_reads_leftovers"
   ],
   "note": "Proved for negotiated sizes of at least 40, firmware identifiers with a terminator, and requests that are not cut off within a length field. False otherwise: a small negotiated size makes the room for a response wrap around, and data is written beyond the buffer (negotiated_overrun); an identifier without terminator and an unseal request cut off in a length field read leftover bytes."
  },
  {
   "property": "C86",
   "status": "partial",
   "theorems": [
    "Verif.Protocol.every_request_is_answered_partial",
    "Verif.Protocol.other_messages_are_dropped",
    "Verif.Protocol.response_names_its_command",
    "Verif.Protocol.small_size_exceeded"
   ],
   "note": "Proved under the conditions of C85. False for smaller sizes (small_size_exceeded)."
  },
  {
   "property": "C87",
   "status": "partial",
   "theorems": [
    "Verif.Protocol.changes_are_those_asked_for_partial",
    "Verif.Protocol.refused_requests_change_nothing_partial",
    "Verif.Protocol.reset_only_if_authorized_partial",
    "Verif.Protocol.session_of_another_endpoint",
    "Verif.Protocol.short_key_exchange_reads_trailer"
   ],
   "note": "Proved under the conditions of C85 (without that on identifiers). A session can be set up for an endpoint that did not announce it, because another one did (session_of_another_endpoint)."
  },
  {
   "property": "C88",
   "status": "proved",
   "theorems": [
    "Verif.Protocol.certificate_is_read_in_parts",
    "Verif.Protocol.certificate_part"
   ],
   "note": "Proved for unencrypted requests and every negotiated size of at least 12."
  },
  {
   "property": "C89",
   "status": "partial",
   "theorems": [
    "Verif.Protocol.sizes_are_isolated_partial",
    "Verif.Protocol.sizes_change_by_negotiation_partial",
    "Verif.Protocol.announced_size_is_used",
    "Verif.Protocol.own_endpoint_limits_everyone"
   ],
   "note": "False for a request that claims to come from the endpoint identifier of the device itself: it sets the limit of everyone (own_endpoint_limits_everyone). Proved for all others, under the conditions of C85 on sizes and cut off requests."
  },
  {
   "property": "C90",
   "status": "partial",
   "theorems": [
    "Verif.Protocol.marked_responses_are_encrypted_partial",
    "Verif.Protocol.stack_statistics_in_plain_text",
    "Verif.Protocol.empty_requests_cannot_be_encrypted"
   ],
   "note": "False for the two diagnostic commands, which return before the response is encrypted (stack_statistics_in_plain_text). Proved for all others."
  },
  {
   "property": "C91",
   "status": "partial",
   "theorems": [
    "Verif.LoggingFlash.log_history_partial",
    "Verif.LoggingFlash.save_works",
    "Verif.LoggingFlash.create_works",
    "Verif.LoggingFlash.not_torn",
    "Verif.LoggingFlash.read_half_end_mark",
    "Verif.LoggingFlash.torn_header_overwritten",
    "Verif.LoggingFlash.first_sector_empty",
    "Verif.LoggingFlash.erased_first_sector"
   ],
   "note": "Full history property with flash failures, short writes and crashes, except when power is lost inside an entry header or between erasing and writing the first sector, when the last identifier is in use, or when the log is read with half of an end mark in the buffer; each of the first three and the last is refuted by a concrete history."
  },
  {
   "property": "C92",
   "status": "partial",
   "theorems": [
    "Verif.Protocol.plain_requests_get_their_answers_partial",
    "Verif.Protocol.reserved_headers_are_errors",
    "Verif.Protocol.encrypted_requests_get_their_answers_partial",
    "Verif.Protocol.answers_do_not_depend_on_earlier_ones_partial",
    "Verif.Protocol.firmware_version_answer",
    "Verif.Protocol.numbers_are_little_endian"
   ],
   "note": "All 55 commands against the table Spec.answer. Missing: negotiated sizes below 12 (40 within sessions), the two Ragged requests and unterminated firmware identifiers, which are refuted under C85; messages longer than the 4096 byte buffer do not exist."
  },
  {
   "property": "C93",
   "status": "partial",
   "theorems": [
    "Verif.OcpRecovery.init_returns",
    "Verif.OcpRecovery.history_confined",
    "Verif.OcpRecovery.flash_confined",
    "Verif.OcpRecovery.memory_write_exact",
    "Verif.OcpRecovery.upload_stores",
    "Verif.OcpRecovery.download_delivers",
    "Verif.OcpRecovery.flash_behind_memory",
    "Verif.OcpRecovery.second_region_erases_first",
    "Verif.OcpRecovery.second_size_unchecked",
    "Verif.OcpRecovery.jump_corrupts",
    "Verif.OcpRecovery.short_write_accepted",
    "Verif.OcpRecovery.polled_region_refused"
   ],
   "note": "Safety and confinement for all histories, exact stores and transfers. Missing because false: flash regions other than the first one (initialisation uses the descriptor of the first region), positions in flash not reached from the start, short flash writes, polled regions; each refuted."
  },
  {
   "property": "C94",
   "status": "proved",
   "theorems": [
    "Verif.OcpRecovery.history_actions",
    "Verif.OcpRecovery.recovery_status"
   ],
   "note": ""
  },
  {
   "property": "C95",
   "status": "partial",
   "theorems": [
    "Verif.OcpRecovery.history_report_partial",
    "Verif.OcpRecovery.status_shows_report",
    "Verif.OcpRecovery.unknown_command_partial",
    "Verif.OcpRecovery.unknown_command_mixes",
    "Verif.OcpRecovery.refused_region_not_reported",
    "Verif.OcpRecovery.stale_command"
   ],
   "note": "The report of every history without unknown command codes. Missing because false: an unknown code is or-ed into an unread report; writes to read-only regions are not reported; an unknown code leaves the earlier command active."
  },
  {
   "property": "C96",
   "status": "partial",
   "theorems": [
    "Verif.OcpRecovery.bus_safe",
    "Verif.OcpRecovery.write_transaction_partial",
    "Verif.OcpRecovery.read_transaction_partial",
    "Verif.OcpRecovery.long_block_refused",
    "Verif.OcpRecovery.long_block_accepted",
    "Verif.OcpRecovery.long_response_pec"
   ],
   "note": "Every transaction except blocks and responses of 255 bytes with a checksum, for which the claim is refuted: the length of the checksum is truncated to 8 bits."
  },
  {
   "property": "C97",
   "status": "partial",
   "theorems": [
    "Verif.Unlock.unlock_authorised",
    "Verif.Unlock.unlock_data_honest",
    "Verif.Unlock.no_replay",
    "Verif.Unlock.signed_container_unlocks",
    "Verif.Unlock.policy_not_covered"
   ],
   "note": "Authorization, freshness, single use and completeness for all histories. That the policy is the signed one is proved for authorities that sign nothing but containers; without that condition it is refuted, because the token length in the data is not compared with the token."
  },
  {
   "property": "C98",
   "status": "proved",
   "theorems": [
    "Verif.Unlock.token_content",
    "Verif.Unlock.token_available",
    "Verif.Unlock.unlock_in_bounds",
    "Verif.Unlock.getters_in_bounds"
   ],
   "note": ""
  },
  {
   "property": "C99",
   "status": "proved",
   "theorems": [
    "Verif.Unlock.rma_signed",
    "Verif.Unlock.rma_unsigned"
   ],
   "note": ""
  },
  {
   "property": "C100",
   "status": "partial",
   "theorems": [
    "Verif.Pcisig.tdisp_answer",
    "Verif.Pcisig.tdisp_refused",
    "Verif.Pcisig.tdisp_small_room"
   ],
   "note": "Exact answers and calls for buffers with room for an error answer (24 bytes); with less room the error answer is written outside of the buffer (refuted)."
  },
  {
   "property": "C101",
   "status": "partial",
   "theorems": [
    "Verif.Pcisig.start_needs_issued_nonce",
    "Verif.Pcisig.lock_once",
    "Verif.Pcisig.locked_nonce_issued",
    "Verif.Pcisig.context_fields",
    "Verif.Pcisig.nonce_reusable",
    "Verif.Pcisig.stop_keeps_nonce",
    "Verif.Pcisig.lock_error_but_locked"
   ],
   "note": "Only the nonce of the last lock starts an interface, for all histories. At most once is refuted: the stored nonce is not cleared by a start or a stop."
  },
  {
   "property": "C102",
   "status": "partial",
   "theorems": [
    "Verif.Pcisig.update_verdict",
    "Verif.Pcisig.update_verdict_kept",
    "Verif.Pcisig.update_fails_open"
   ],
   "note": "Exact for interfaces whose state and context can be read; a failure to read them opens the gate (refuted)."
  },
  {
   "property": "C103",
   "status": "partial",
   "theorems": [
    "Verif.Pcisig.Ide.ide_answer",
    "Verif.Pcisig.Ide.ide_secured",
    "Verif.Pcisig.Ide.ide_key_erased",
    "Verif.Pcisig.Ide.ide_small_room",
    "Verif.Pcisig.Ide.ide_wrong_length_keeps"
   ],
   "note": "Exact for buffers of at least 15 bytes. Smaller buffers are overrun by a query, and a key in a request of the wrong length stays in the buffer (both refuted)."
  },
  {
   "property": "C104",
   "status": "partial",
   "theorems": [
    "Verif.Pcisig.Doe.doe_answer",
    "Verif.Pcisig.Doe.doe_answer_legal",
    "Verif.Pcisig.Doe.doe_sent",
    "Verif.Pcisig.Doe.discovery_finds_all",
    "Verif.Pcisig.Doe.doe_padding_stale"
   ],
   "note": "All but the last sentence: the bytes that fill the answer up to a multiple of 4 are old contents of the buffer (refuted)."
  },
  {
   "property": "C105",
   "status": "partial",
   "theorems": [
    "Verif.Spdm.transcripts_exact",
    "Verif.Spdm.transcript_hole",
    "Verif.Spdm.missing_session_blocks_m1m2",
    "Verif.Spdm.th_update_out_of_bounds"
   ],
   "note": "Exact for all histories of operations on sessions that have engines. Refuted: a failed update leaves a hole that a later digest hides; a session without engines takes the engine of another context for good; an unmarked TH update leaves the array."
  },
  {
   "property": "C106",
   "status": "partial",
   "theorems": [
    "Verif.Spdm.decode_sealed",
    "Verif.Spdm.decode_sound",
    "Verif.Spdm.decode_touches_named",
    "Verif.Spdm.encode_sealed",
    "Verif.Spdm.encode_fits",
    "Verif.Spdm.ivFor_inj",
    "Verif.Spdm.create_iff",
    "Verif.Spdm.create_ok",
    "Verif.Spdm.release_ok",
    "Verif.Spdm.decode_table",
    "Verif.Spdm.encode_table",
    "Verif.Spdm.termination_policy",
    "Verif.Spdm.length_not_checked",
    "Verif.Spdm.forged_takes_number",
    "Verif.Spdm.answer_past_buffer"
   ],
   "note": "Proved for all tables, messages and AEADs with 32 byte keys, 12 byte IVs and 16 byte tags. Refuted: the inner length may exceed the data by two bytes, so tag bytes are handed on; a forged message consumes the sequence number; the check of the room for the answer ignores the headers in front."
  },
  {
   "property": "C107",
   "status": "proved",
   "theorems": [
    "Verif.Spdm.nonce_unique",
    "Verif.Spdm.uses_derived",
    "Verif.Spdm.sessions_lawful",
    "Verif.Spdm.served_authentic"
   ],
   "note": "For all histories of requests on all tables; the handlers are modelled as far as they decide about sessions, the connection state may be anything at every request."
  },
  {
   "property": "C108",
   "status": "proved",
   "theorems": [
    "Verif.FwImage.compInit_ok",
    "Verif.FwImage.load_authentic",
    "Verif.FwImage.load_memory_authentic",
    "Verif.FwImage.app_load_authentic",
    "Verif.FwImage.Example.verify_then_load_unsafe"
   ],
   "note": "For all sequences of flash contents and failures. Verification in place followed by a separate load does not have the property, with a witness; the code has the combined calls for this."
  },
  {
   "property": "C109",
   "status": "partial",
   "theorems": [
    "Verif.FwImage.compInit_onFlash",
    "Verif.FwImage.verification_exact",
    "Verif.FwImage.load_exact",
    "Verif.FwImage.Example.verification_wraps"
   ],
   "note": "Exact for components that end below 2^32. With a 32 bit size_t the total length of a component wraps and the signature that is checked is over a part of the header only, with a witness."
  },
  {
   "property": "C110",
   "status": "proved",
   "theorems": [
    "Verif.FwImage.calls_release",
    "Verif.FwImage.init_release",
    "Verif.FwImage.fwHeaderInit_ok",
    "Verif.FwImage.fw_header_fields"
   ],
   "note": "For all calls, contents and failures."
  },
  {
   "property": "C111",
   "status": "proved",
   "theorems": [
    "Verif.FwImage.copy_component_exact"
   ],
   "note": "Source on another device that is stable; any behaviour of the destination."
  },
  {
   "property": "C112",
   "status": "partial",
   "theorems": [
    "Verif.Riot.devid_authentic",
    "Verif.Riot.chain_authentic_partial",
    "Verif.Riot.keys_stable_while_held",
    "Verif.Riot.import_refused",
    "Verif.Riot.import_asks",
    "Verif.Riot.store_agrees_partial",
    "Verif.Riot.Example.root_before_check",
    "Verif.Riot.Example.race_store"
   ],
   "note": "The device identity part and stability hold in every interleaving. Missing because false: the root CA can be read while its chain is still under check; an import whose check came before a verification and whose save came after it replaces a stored certificate although the chain is locked. Both with witnesses."
  },
  {
   "property": "C113",
   "status": "partial",
   "theorems": [
    "Verif.Riot.memory_safe",
    "Verif.Riot.no_leak_partial",
    "Verif.Riot.release_all_partial",
    "Verif.Riot.Example.race_leak",
    "Verif.Riot.Example.race_inter"
   ],
   "note": "Safety in every interleaving; no loss in every history in which imports are not interrupted between check and save. Without that restriction it is false: the race loses the certificates in use, with a witness."
  },
  {
   "property": "C114",
   "status": "proved",
   "theorems": [
    "Verif.OcpRecovery.capabilities_exact",
    "Verif.OcpRecovery.recovery_read_back",
    "Verif.OcpRecovery.reset_read_back"
   ],
   "note": "For all configurations and states."
  },
  {
   "property": "C115",
   "status": "partial",
   "theorems": [
    "Verif.Attest.digests_exact",
    "Verif.Attest.certificate_exact_partial",
    "Verif.Attest.Example.no_root_mismatch",
    "Verif.Attest.Example.removed_chain_null"
   ],
   "note": "The digests are exact in all cases. The certificates are exact when no intermediate CA is without root CA and the chain does not change during the call; both restrictions are needed, with witnesses."
  },
  {
   "property": "C116",
   "status": "proved",
   "theorems": [
    "Verif.Attest.challenge_signed",
    "Verif.Attest.challenge_releases",
    "Verif.Attest.challenge_answered"
   ],
   "note": "Assumes a PCR value of at most 64 bytes, a nonce of 32 bytes and a signature that fits the room given to the engine."
  },
  {
   "property": "C117",
   "status": "partial",
   "theorems": [
    "Verif.Attest.no_deadlock_partial",
    "Verif.Attest.single_task",
    "Verif.Attest.digests_challenge_deadlock"
   ],
   "note": "Any number of tasks without challenges, and one task with challenges. False in general: digests take the lock of the keys and then the one of the responder, a challenge takes them the other way round; two tasks deadlock."
  },
  {
   "property": "C118",
   "status": "proved",
   "theorems": [
    "Verif.Attest.unseal_exact"
   ],
   "note": "Decryption, ECDH, KDF and HMAC are arbitrary functions that can fail."
  },
  {
   "property": "C119",
   "status": "partial",
   "theorems": [
    "Verif.Intrusion.reported_exact",
    "Verif.Intrusion.healthy_measured",
    "Verif.Intrusion.measurement_agrees_partial",
    "Verif.Intrusion.state_calls",
    "Verif.Intrusion.reset_ok",
    "Verif.Intrusion.handle_ok",
    "Verif.Intrusion.stale_measurement",
    "Verif.Intrusion.lost_intrusion"
   ],
   "note": "The report is exact for every history. The measurement agrees if no measurement of an adverse event fails; otherwise it stays that of the closed chassis, with a witness."
  },
  {
   "property": "C120",
   "status": "partial",
   "theorems": [
    "Verif.Tpm.clear_done",
    "Verif.Tpm.clear_persists_partial",
    "Verif.Tpm.counter_exact_partial",
    "Verif.Tpm.storage_read_back",
    "Verif.Tpm.schedule_keeps_counter",
    "Verif.Tpm.bad_header_replaced",
    "Verif.Tpm.blank_read",
    "Verif.Tpm.Example.read_error_resets_counter",
    "Verif.Tpm.Example.read_error_drops_clear",
    "Verif.Tpm.Example.failed_erase_forgotten",
    "Verif.Tpm.Example.torn_increment"
   ],
   "note": "Clearing and counting hold under the stated faults. False in general: one failing read of the header, a failing erasure or a torn write of the header loses clear and counter; witnesses."
  },
  {
   "property": "C121",
   "status": "partial",
   "theorems": [
    "Verif.EventTask.exactly_once_partial",
    "Verif.EventTask.never_lost_partial",
    "Verif.EventTask.accepted_exact_partial",
    "Verif.EventTask.context_stable_partial",
    "Verif.EventTask.Example.cancel_loses_event"
   ],
   "note": "For any number of tasks and every schedule in which each call names a handler of the list and the task is started once. Without the first restriction it is false: a cancelled call can cause the loss of an event of another task, with a witness."
  },
  {
   "property": "C122",
   "status": "partial",
   "theorems": [
    "Verif.Impactful.allowed_exact",
    "Verif.Impactful.not_impactful_exact",
    "Verif.Impactful.blocked",
    "Verif.Impactful.authorized_exact",
    "Verif.Impactful.limited_ends",
    "Verif.Impactful.limited_over",
    "Verif.Impactful.no_deadlock_partial",
    "Verif.Impactful.authorize_expire_deadlock"
   ],
   "note": "Decision and lifetime in every interleaving. The last part is false: an authorization given at the moment at which the timer of the earlier one runs out deadlocks with the timer, with a witness; without new authorizations there is no deadlock."
  },
  {
   "property": "C123",
   "status": "partial",
   "theorems": [
    "Verif.Requester.compare_exact",
    "Verif.Requester.data_exact_partial",
    "Verif.Requester.data_ok_last",
    "Verif.Requester.earlier_check_ignored",
    "Verif.Requester.empty_data_undefined",
    "Verif.Requester.empty_digests_undefined",
    "Verif.Requester.digest_accepted",
    "Verif.Requester.digest_complete",
    "Verif.Requester.version_set_from_data"
   ],
   "note": "Comparison and digests are exact; data are exact if one check concerns the version set. False for several checks: only the last one decides, with a witness; empty data and empty digest lists leave the result undefined."
  },
  {
   "property": "C124",
   "status": "partial",
   "theorems": [
    "Verif.Requester.keys_vouched_partial",
    "Verif.Requester.root_rule_skipped"
   ],
   "note": "For all histories, the key is vouched for by a component of the history. False for the component that is accepted: a key from an earlier attestation is used without looking at the root rule of the present component."
  },
  {
   "property": "C125",
   "status": "partial",
   "theorems": [
    "Verif.Requester.attestation_evidence",
    "Verif.Requester.all_signed_partial",
    "Verif.Requester.signed_values_partial",
    "Verif.Requester.downgrade_accepted",
    "Verif.Requester.value_outside_accepted"
   ],
   "note": "Every rule is met by recorded evidence, signed over our nonce whenever the device last said it has certificates. False in full: with SPDM 1.2 a device can drop its certificates for one measurement and still be AUTHENTICATED; values may lie outside the signed part."
  },
  {
   "property": "C126",
   "status": "partial",
   "theorems": [
    "Verif.Requester.failure_not_accepted_partial",
    "Verif.Requester.others_untouched",
    "Verif.Requester.not_attestable_stays",
    "Verif.Requester.bad_signature_stays_authenticated"
   ],
   "note": "Proved for devices that were not accepted before. False for others: a bad challenge signature leaves the device AUTHENTICATED and counts a success."
  },
  {
   "property": "C127",
   "status": "proved",
   "theorems": [
    "Verif.RiotSha.sha256_exact",
    "Verif.RiotSha.block_exact",
    "Verif.RiotSha.split_irrelevant",
    "Verif.RiotSha.final_exact"
   ],
   "note": "Little-endian host; pointers and alignment are not modelled. The constants of the specification are computed from the roots of the primes. FIPS 180-4 defines the digest below 2^64 bits; the theorem holds beyond, with the length taken modulo 2^64."
  },
  {
   "property": "C128",
   "status": "partial",
   "theorems": [
    "Verif.RiotSha.hmac_exact",
    "Verif.RiotSha.kdf_value_partial",
    "Verif.RiotSha.kdf_not_sp800_108"
   ],
   "note": "HMAC is exact. The key derivation is not SP 800-108 on a little-endian host: the macro that should reverse the bytes of counter and length is the identity; the value it computes is proved, with a witness that it differs."
  },
  {
   "property": "C129",
   "status": "partial",
   "theorems": [
    "Verif.RiotDer.builder_exact_partial",
    "Verif.RiotDer.builder_total_partial",
    "Verif.RiotDer.sample_der",
    "Verif.RiotDer.lenOctets_decodes",
    "Verif.RiotDer.never_refused",
    "Verif.RiotDer.overflow",
    "Verif.RiotDer.overflow_small",
    "Verif.RiotDer.int_indefinite",
    "Verif.RiotDer.long_length_wrong",
    "Verif.RiotDer.no_length",
    "Verif.RiotDer.oid_first_wrong"
   ],
   "note": "Exact and total for buffers below 64 KiB, OIDs whose first two arcs share an octet and integers below 128 content bytes, given 32 spare bytes. False otherwise, with witnesses: the check for space of large data adds the length instead of subtracting it, so a full buffer is overrun."
  },
  {
   "property": "C130",
   "status": "partial",
   "theorems": [
    "Verif.RiotDer.Dec.reads_in_bounds_partial",
    "Verif.RiotDer.Dec.key_range_partial",
    "Verif.RiotDer.Dec.subject_copy_partial",
    "Verif.RiotDer.Dec.subject_found",
    "Verif.RiotDer.Dec.pubkey_found",
    "Verif.RiotDer.Dec.key_range_wrong",
    "Verif.RiotDer.Dec.empty_key_wrong",
    "Verif.RiotDer.Dec.subject_overread",
    "Verif.RiotDer.Dec.subject_cut"
   ],
   "note": "The walk over the headers never leaves the encoding. False for the copy of the name and the range of the key: the position plus a sign-extended length wraps, and an empty key gets length 2^64-1; witnesses are proved, and the claims hold when the announced length is below 2^62."
  },
  {
   "property": "C131",
   "status": "partial",
   "theorems": [
    "Verif.CertBuild.self_signed_exact_partial",
    "Verif.CertBuild.ca_signed_exact_partial",
    "Verif.CertBuild.chain_links_partial",
    "Verif.CertBuild.csr_exact_partial",
    "Verif.CertBuild.self_signed_total_partial",
    "Verif.CertBuild.ca_signed_total_partial",
    "Verif.CertBuild.csr_total_partial",
    "Verif.CertBuild.no_leak_partial",
    "Verif.CertBuild.zero_serial",
    "Verif.CertBuild.leak",
    "Verif.CertBuild.extension_overflow",
    "Verif.CertBuild.empty_key_overread"
   ],
   "note": "Exact contents, signature coverage and chaining for serial numbers below 127 bytes and buffers below 64 KiB; success with 32 spare bytes. False, with witnesses: an extension that does not fit overruns the buffer, a public key with an empty BIT STRING makes the hash read outside it, and a key that cannot be decoded leaks."
  },
  {
   "property": "C132",
   "status": "partial",
   "theorems": [
    "Verif.ExtBuild.eku_exact_partial",
    "Verif.ExtBuild.eku_dynamic_partial",
    "Verif.ExtBuild.ueid_exact_partial",
    "Verif.ExtBuild.ueid_dynamic_partial",
    "Verif.ExtBuild.tcb_exact_partial",
    "Verif.ExtBuild.tcb_dynamic_partial",
    "Verif.ExtBuild.dme_exact_partial",
    "Verif.ExtBuild.dme_dynamic_partial",
    "Verif.ExtBuild.missing_refused",
    "Verif.ExtBuild.ueid_256_refused",
    "Verif.ExtBuild.static_overflow",
    "Verif.ExtBuild.tcb_static_overflow",
    "Verif.ExtBuild.short_digest_overread"
   ],
   "note": "For buffers below 64 KiB, strings and OIDs below 127 bytes. False for identifiers of 256 bytes or more, which never fit the buffer allocated for them; a buffer of the caller that is too small is overrun, and a digest shorter than its algorithm is read past its end."
  },
  {
   "property": "C133",
   "status": "partial",
   "theorems": [
    "Verif.RiotCore.device_cert_partial",
    "Verif.RiotCore.alias_chain_partial",
    "Verif.RiotCore.getters_safe_partial",
    "Verif.RiotCore.derived_unique",
    "Verif.RiotCore.device_id_cleared",
    "Verif.RiotCore.device_encoding_wiped",
    "Verif.RiotCore.first_device_id_keeps",
    "Verif.RiotCore.regenerate_breaks_chain",
    "Verif.RiotCore.regenerate_null_cert",
    "Verif.RiotCore.alias_key_mismatch",
    "Verif.RiotCore.retry_loses_key",
    "Verif.RiotCore.seed_left",
    "Verif.RiotCore.alias_secret_left",
    "Verif.RiotCore.alias_encoding_not_wiped"
   ],
   "note": "For handlers that do not generate a Device ID or alias key again after a success; failed calls may be repeated. False with a second generation that fails (old certificate with a new key, a null certificate that is read, a key that is not the certified one). Secrets: cleared only after a successful Device ID generation; the counterexamples show a seed, the alias secret and the alias encoding left in memory and a key lost by a retry. Certificates below 64 KiB; allocations of that size succeed; a private key encoding is not taken for a public one."
  },
  {
   "property": "C134",
   "status": "partial",
   "theorems": [
    "Verif.FwPfm.run_sound_partial",
    "Verif.FwPfm.run_accepts",
    "Verif.FwPfm.run_recorded_partial",
    "Verif.FwPfm.init_recorded",
    "Verif.FwPfm.stale_success",
    "Verif.FwPfm.same_type",
    "Verif.FwPfm.nothing_checked",
    "Verif.FwPfm.version_cut"
   ],
   "note": "Errors of the host firmware check are not 0; image lists are well formed as in C49/HostFw; for the measurements, five different types and version and platform without NUL. Missing: that a run always leaves PCR and log in agreement. It is false: a failure of the recording is ignored (`stale_success`), and equal measurement types are not refused (`same_type`). Also, a PFM without an image flagged for validation accepts any flash (`nothing_checked`), as the header documents."
  },
  {
   "property": "C135",
   "status": "partial",
   "theorems": [
    "Verif.SpdmMeas.blocks_read",
    "Verif.SpdmMeas.blocks_index",
    "Verif.SpdmMeas.block_exact_partial",
    "Verif.SpdmMeas.block_refused",
    "Verif.SpdmMeas.block_length_partial",
    "Verif.SpdmMeas.all_exact_partial",
    "Verif.SpdmMeas.all_length_partial",
    "Verif.SpdmMeas.summary_exact_partial",
    "Verif.SpdmMeas.device_id_exact",
    "Verif.SpdmMeas.discovery_block_partial",
    "Verif.SpdmMeas.discovery_all_partial",
    "Verif.SpdmMeas.discovery_length_partial",
    "Verif.SpdmMeas.discovery_index",
    "Verif.SpdmMeas.discovery_summary_partial",
    "Verif.SpdmMeas.grown_data_truncated",
    "Verif.SpdmMeas.no_record",
    "Verif.SpdmMeas.index_clash",
    "Verif.SpdmMeas.reserved_index"
   ],
   "note": "For data that do not change during a call, of less than 65533 bytes, and types of 7 bits. Missing: data that change (`grown_data_truncated`), 255 measurements or more (`reserved_index`), 239 or more with a device ID (`index_clash`), and a record for measurements without data in another hash algorithm (`no_record`): there the property is false."
  },
  {
   "property": "C136",
   "status": "partial",
   "theorems": [
    "Verif.SpdmCert.certificate_exact_partial",
    "Verif.SpdmCert.fetch_exact_partial",
    "Verif.SpdmCert.digests_exact",
    "Verif.SpdmCert.digests_served",
    "Verif.SpdmCert.refused",
    "Verif.SpdmCert.served_complete",
    "Verif.SpdmCert.long_chain_cut",
    "Verif.SpdmCert.failed_request_kept",
    "Verif.SpdmCert.beyond_end_answered",
    "Verif.SpdmCert.session_resets",
    "Verif.SpdmCert.small_buffer_exceeded"
   ],
   "note": "Chains of less than 64 KiB. Missing: longer chains, which are cut without notice (`long_chain_cut`); a request that fails late stays in the transcript (`failed_request_kept`); the transcript outside is reset by a request within a session (`session_resets`); messages of less than 8 bytes (`small_buffer_exceeded`)."
  },
  {
   "property": "C137",
   "status": "partial",
   "theorems": [
    "Verif.Mmio.step_exact",
    "Verif.Mmio.step_refused_partial",
    "Verif.Mmio.run_exact_partial",
    "Verif.Mmio.write_frame",
    "Verif.Mmio.by_addr_exact",
    "Verif.Mmio.by_addr_outside_partial",
    "Verif.Mmio.block_read_exact",
    "Verif.Mmio.block_write_exact",
    "Verif.Mmio.empty_field_undefined",
    "Verif.Mmio.foreign_address_accessed",
    "Verif.Mmio.concurrent_write_lost"
   ],
   "note": "Fields of at least one bit, requests one after the other, pointers of 64 bits for foreign addresses. Missing: a field of zero bits (undefined shift, `empty_field_undefined`), pointers of 32 bits (`foreign_address_accessed`), and tasks that write fields of the same register at the same time (`concurrent_write_lost`): there the property is false."
  },
  {
   "property": "C138",
   "status": "partial",
   "theorems": [
    "Verif.SpdmNeg.choice_common",
    "Verif.SpdmNeg.choice_none",
    "Verif.SpdmNeg.choice_lowest",
    "Verif.SpdmNeg.negotiated_partial",
    "Verif.SpdmNeg.negotiate_complete",
    "Verif.SpdmNeg.negotiate_in_buffer",
    "Verif.SpdmNeg.flags_exact",
    "Verif.SpdmNeg.capabilities_exact",
    "Verif.SpdmNeg.declared_beyond_payload",
    "Verif.SpdmNeg.read_beyond_buffer",
    "Verif.SpdmNeg.write_beyond_buffer",
    "Verif.SpdmNeg.nothing_in_common",
    "Verif.SpdmNeg.stale_group",
    "Verif.SpdmNeg.several_chosen",
    "Verif.SpdmNeg.refused_version"
   ],
   "note": "Soundness for requests that declare at most the bytes they have, memory safety with 260 bytes behind the payload, completeness and capabilities without such limits. False otherwise, with proofs: tables behind the payload are used (`declared_beyond_payload`, `read_beyond_buffer`), the response may exceed the buffer (`write_beyond_buffer`), a refused request leaves its group for the next one (`stale_group`), and a refused GET_CAPABILITIES changes the version (`refused_version`). Not modelled: sessions, and the reset of the transcript for measurements."
  },
  {
   "property": "C139",
   "status": "partial",
   "theorems": [
    "Verif.DevSched.offered_due",
    "Verif.DevSched.offered_eid",
    "Verif.DevSched.none_due",
    "Verif.DevSched.offered_first",
    "Verif.DevSched.fair",
    "Verif.DevSched.update_exact",
    "Verif.DevSched.update_refused",
    "Verif.DevSched.not_attestable_never",
    "Verif.DevSched.cadence",
    "Verif.DevSched.sleep_exact",
    "Verif.DevSched.sleep_unreadable",
    "Verif.DevSched.report_partial",
    "Verif.DevSched.counterexample_interleaved",
    "Verif.DevSched.counterexample_fresh",
    "Verif.DevSched.counterexample_stale",
    "Verif.DevSched.counterexample_no_period"
   ],
   "note": "All but the report without limits. The report is proved for tables whose components are grouped and as many as the manager was created for; otherwise it is false, with proofs: with the devices of a component apart the buffer is overrun (`counterexample_interleaved`), with fewer components the report ends in uninitialised memory (`counterexample_stale`), and devices never attested are reported as authenticated until the table is filled (`counterexample_fresh`). Some authenticated states have no period at all (`counterexample_no_period`). A clock failure while a state is recorded keeps the old timer."
  },
  {
   "property": "C140",
   "status": "partial",
   "theorems": [
    "Verif.Discovery.routing_sound_partial",
    "Verif.Discovery.routing_all",
    "Verif.Discovery.routing_complete",
    "Verif.Discovery.offered",
    "Verif.Discovery.none_offered_partial",
    "Verif.Discovery.remove_offered",
    "Verif.Discovery.delay_offered",
    "Verif.Discovery.discover_safe",
    "Verif.Discovery.round_complete",
    "Verif.Discovery.counterexample_endless",
    "Verif.Discovery.counterexample_last_ignored",
    "Verif.Discovery.counterexample_remove_head",
    "Verif.Discovery.counterexample_range_skipped",
    "Verif.Discovery.counterexample_own_eid"
   ],
   "note": "Exact for routing tables none of whose ranges starts with a device that is not attestable. False otherwise, with proofs: such a range is skipped as a whole (`counterexample_range_skipped`), the own and the null EID can become candidates (`counterexample_own_eid`), a table without end is read for ever (`counterexample_endless`), the last candidate of the list is not looked at while the others wait (`counterexample_last_ignored`). Removing is safe as the requester uses it (`remove_offered`), not for an arbitrary EID (`counterexample_remove_head`). The circular list is a list that starts at the head."
  },
  {
   "property": "C141",
   "status": "partial",
   "theorems": [
    "Verif.MctpCtl.answered",
    "Verif.MctpCtl.refused_partial",
    "Verif.MctpCtl.malformed_partial",
    "Verif.MctpCtl.only_set_eid",
    "Verif.MctpCtl.in_buffer",
    "Verif.MctpCtl.eid_history",
    "Verif.MctpCtl.routing_understood",
    "Verif.MctpCtl.routing_accepted",
    "Verif.MctpCtl.own_responses_accepted",
    "Verif.MctpCtl.own_requests",
    "Verif.MctpCtl.counterexample_stale_byte",
    "Verif.MctpCtl.counterexample_response_processed",
    "Verif.MctpCtl.counterexample_failed_but_changed",
    "Verif.MctpCtl.counterexample_told_refused",
    "Verif.MctpCtl.counterexample_reserved_eid",
    "Verif.MctpCtl.counterexample_empty_routing"
   ],
   "note": "Good requests are answered exactly. False, with proofs: failure responses have a fourth byte, left over in the buffer (`counterexample_stale_byte`; hence the names refused_partial and malformed_partial); a message without request bit is processed as a request (`counterexample_response_processed`); a Set EID answered with an error can have changed the own EID (`counterexample_failed_but_changed`); observers are told of refused Set EID requests; reserved EIDs 1-7 are accepted; a routing table without entries is refused."
  },
  {
   "property": "C142",
   "status": "partial",
   "theorems": [
    "Verif.CfmFlash.device_exact",
    "Verif.CfmFlash.device_unknown",
    "Verif.CfmFlash.device_sound",
    "Verif.CfmFlash.pmr_exact",
    "Verif.CfmFlash.pmr_digest_exact",
    "Verif.CfmFlash.root_ca_exact",
    "Verif.CfmFlash.supported_exact",
    "Verif.CfmFlash.measurements_sound",
    "Verif.CfmFlash.measurements_exact_partial",
    "Verif.CfmFlash.manifests_exact",
    "Verif.CfmFlash.counterexample_interleaved",
    "Verif.CfmFlash.counterexample_root_ca_heap",
    "Verif.CfmFlash.counterexample_pmr_digest_heap",
    "Verif.CfmFlash.counterexample_pmr_stack",
    "Verif.CfmFlash.counterexample_platform_stack",
    "Verif.CfmFlash.counterexample_malformed_component"
   ],
   "note": "All readers are exact for well-formed components. measurements_exact_partial needs the measurements of a kind to follow each other; otherwise measurements are silently skipped (`counterexample_interleaved`), what is reported is still right (`measurements_sound`). False for elements that are cut short: root CA and PMR digests, PMR values and platform IDs then come from uninitialized memory (counterexamples)."
  },
  {
   "property": "C143",
   "status": "partial",
   "theorems": [
    "Verif.PcdFlash.rot_exact",
    "Verif.PcdFlash.rot_missing",
    "Verif.PcdFlash.rot_no_stack",
    "Verif.PcdFlash.port_exact",
    "Verif.PcdFlash.power_exact",
    "Verif.PcdFlash.components_exact",
    "Verif.PcdFlash.next_safe",
    "Verif.PcdFlash.next_sound",
    "Verif.PcdFlash.next_retry",
    "Verif.PcdFlash.first_failure_frees_partial",
    "Verif.PcdFlash.supported_exact_partial",
    "Verif.PcdFlash.counterexample_rot_format_zero",
    "Verif.PcdFlash.counterexample_power_stack",
    "Verif.PcdFlash.counterexample_first_leak",
    "Verif.PcdFlash.counterexample_list_count"
   ],
   "note": "Exact for well-formed PCDs; reading components is safe and sound for any PCD. False: the list of components says one device for a direct or TCG log component that has more (`counterexample_list_count`), a failed first call can leave a context to free (`counterexample_first_leak`), and short RoT elements of format 0 and short power controller elements are completed with the stack (`counterexample_rot_format_zero`, `counterexample_power_stack`)."
  },
  {
   "property": "C144",
   "status": "partial",
   "theorems": [
    "Verif.RiotAes.block_exact",
    "Verif.RiotAes.ecb_exact",
    "Verif.RiotAes.ctr_exact",
    "Verif.RiotAes.crypt_exact_partial",
    "Verif.RiotAes.crypt_small",
    "Verif.RiotAes.crypt_inverse",
    "Verif.RiotAes.counterexample_4gb"
   ],
   "note": "The cipher, ECB and counter mode are exact for all keys and data. `RiotCrypt_SymEncryptDecrypt` is exact below 4 GB; with 64-bit sizes it is false from there on, because the size is converted to 32 bits (`counterexample_4gb`)."
  },
  {
   "property": "C145",
   "status": "partial",
   "theorems": [
    "Verif.HostIrq.power_on_stops",
    "Verif.HostIrq.power_on_order",
    "Verif.HostIrq.no_unsecure",
    "Verif.HostIrq.swap_after_recovery_partial",
    "Verif.HostIrq.force_exact",
    "Verif.HostIrq.counterexample_swap",
    "Verif.HostIrq.counterexample_no_swap",
    "Verif.HostIrq.counterexample_force_forever"
   ],
   "note": "Order, limits, permission and result are proved for all hosts. False: if the first bypass fails, the second swaps the flash although there was no recovery (`counterexample_swap`); a failed recovery followed by a missing image does not swap (`counterexample_no_swap`); forced recovery never ends if the flash configuration is not supported (`counterexample_force_forever`). Proved for the first bypass."
  },
  {
   "property": "C146",
   "status": "partial",
   "theorems": [
    "Verif.RiotB64.encode_exact_partial",
    "Verif.RiotB64.decode_enc",
    "Verif.RiotB64.decode_safe",
    "Verif.RiotB64.counterexample_encode_size",
    "Verif.RiotB64.counterexample_decode_invalid",
    "Verif.RiotB64.counterexample_decode_size"
   ],
   "note": "Encoding is exact below 3 GB; with 32-bit sizes the needed size overflows there (`counterexample_encode_size`). Decoding is safe for all strings and inverts the encoding. False: strings that are not Base64 are accepted (`counterexample_decode_invalid`), and the size is reported only on failure (`counterexample_decode_size`)."
  },
  {
   "property": "C147",
   "status": "partial",
   "theorems": [
    "Verif.RamFlash.history_exact_partial",
    "Verif.RamFlash.only_last_block_oob",
    "Verif.RamFlash.deviceSize_eq_partial",
    "Verif.RamFlash.counterexample_erase",
    "Verif.RamFlash.counterexample_write",
    "Verif.RamFlash.counterexample_size"
   ],
   "note": "Exact for all histories if the size is a multiple of 256 below 2 GB. False otherwise: erasing the last, incomplete block writes beyond the buffer (`counterexample_erase`; `only_last_block_oob` says nothing else does), a write of 2 GB returns a negative number, and 4 GB are reported as 0."
  },
  {
   "property": "C148",
   "status": "partial",
   "theorems": [
    "Verif.MeasObs.record_exact",
    "Verif.MeasObs.record_succeeds",
    "Verif.MeasObs.record_frame",
    "Verif.MeasObs.id_distinct",
    "Verif.MeasObs.init_iff",
    "Verif.MeasObs.recovery_exact",
    "Verif.MeasObs.host_history",
    "Verif.MeasObs.host_last",
    "Verif.MeasObs.counterexample_mixed",
    "Verif.MeasObs.counterexample_stale",
    "Verif.MeasObs.counterexample_host",
    "Verif.MeasObs.counterexample_host_init"
   ],
   "note": "Exact whenever the reads and the hash engine work, for all stores and histories. False after failures, which the observers drop: measurements of two manifests are mixed (`counterexample_mixed`), or stay those of the old manifest or host state (`counterexample_stale`, `counterexample_host`). The host observer does not check its measurement type (`counterexample_host_init`)."
  },
  {
   "property": "C149",
   "status": "partial",
   "theorems": [
    "Verif.ErrorState.send_exact",
    "Verif.ErrorState.silent_after_failure",
    "Verif.ErrorState.transparent",
    "Verif.ErrorState.tests_run",
    "Verif.ErrorState.exit_exact",
    "Verif.ErrorState.race_one_partial",
    "Verif.ErrorState.counterexample_exit",
    "Verif.ErrorState.counterexample_race"
   ],
   "note": "Exact for all sequential histories. False: if a handler refuses to leave the error state, the channels before it send again (`counterexample_exit`); and a packet that was already checked leaves after the error state was entered (`counterexample_race`), but only one per sender (`race_one_partial`)."
  },
  {
   "property": "C150",
   "status": "partial",
   "theorems": [
    "Verif.Rfc6979.rfc6979_partial",
    "Verif.Rfc6979.deterministic",
    "Verif.Rfc6979.failed_instantiate_erases",
    "Verif.Rfc6979.counterexample_raw_digest",
    "Verif.Rfc6979.counterexample_after_clear"
   ],
   "note": "Exact for digests that the caller reduced as the RFC prescribes (`rfc6979_partial`). False for a digest as the hash function returns it, which the interface allows: it is not reduced modulo the group order (`counterexample_raw_digest`); and a cleared generator still gives candidates, the same ones for all keys (`counterexample_after_clear`)."
  },
  {
   "property": "C151",
   "status": "partial",
   "theorems": [
    "Verif.KeyGen.contexts_exact",
    "Verif.KeyGen.ecdh_exact",
    "Verif.KeyGen.ecdh_complete",
    "Verif.KeyGen.ecdsa_exact",
    "Verif.KeyGen.hw_exact_partial",
    "Verif.KeyGen.counterexample_hw_failure"
   ],
   "note": "Exact for engines with key contexts, and for hardware when the generation itself succeeds (`hw_exact_partial`). False when the hardware fails after writing a part of the private key: the caller's buffer is not cleared (`counterexample_hw_failure`). The code for CMVP fault injection is compiled out and not modelled."
  },
  {
   "property": "C152",
   "status": "partial",
   "theorems": [
    "Verif.RiotSha1.sha1_exact_partial",
    "Verif.RiotSha1.split_irrelevant_partial",
    "Verif.RiotSha1.update_defined_iff",
    "Verif.RiotSha1.block_exact_partial",
    "Verif.RiotSha1.update_overflow",
    "Verif.RiotSha1.block_truncates"
   ],
   "note": "Exact for any number of calls of at most 2^32 - 64 bytes each, and for one call below 4 GiB. False beyond: a call whose bytes and those of the open block reach 2^32 writes behind the buffer (`update_defined_iff`, `update_overflow`), and the one-call form cuts the size to 32 bits (`block_truncates`)."
  },
  {
   "property": "C153",
   "status": "partial",
   "theorems": [
    "Verif.HostSingle.config_accepted",
    "Verif.HostSingle.config_exact",
    "Verif.HostSingle.start_exact",
    "Verif.HostSingle.finish_exact",
    "Verif.HostSingle.powerOn_exact",
    "Verif.HostSingle.bypass_exact_partial",
    "Verif.HostSingle.bypass_one_device",
    "Verif.HostSingle.history_exact_partial",
    "Verif.HostSingle.counterexample_failed_switch",
    "Verif.HostSingle.counterexample_bypass_swap"
   ],
   "note": "Exact for every history in which the access to the flash succeeds and bypass mode does not exchange the devices. False otherwise: a failed change of the current device leaves the new device selected while the filter uses the old one (`counterexample_failed_switch`), and bypass mode with an exchange does nothing while a temporary selection is in effect (`counterexample_bypass_swap`). The verification between start and end is not part of this model."
  },
  {
   "property": "C154",
   "status": "proved",
   "theorems": [
    "Verif.SigVerEcc.verify_exact",
    "Verif.SigVerEcc.key_accepted",
    "Verif.SigVerEcc.keys_released_once",
    "Verif.SigVerEcc.released_not_recorded"
   ],
   "note": "For every history before the release. The release does not record that the key is gone, so a check or a second release after it would use the released key (`released_not_recorded`); the claim ends with the release. The maximum signature length and NULL instances are not modelled."
  },
  {
   "property": "C155",
   "status": "partial",
   "theorems": [
    "Verif.EphemeralKeys.keys_once_in_order_partial",
    "Verif.EphemeralKeys.stored_exact",
    "Verif.EphemeralKeys.wait_exact",
    "Verif.EphemeralKeys.refilled",
    "Verif.EphemeralKeys.key_remains"
   ],
   "note": "Proved for a key cache that is a bounded queue, whose calls can fail without effect; not composed with the model of the cache in flash. A generated key stays in the temporary buffer of the manager after it was given out (`key_remains`)."
  },
  {
   "property": "C156",
   "status": "partial",
   "theorems": [
    "Verif.UpdateReset.reset_exact",
    "Verif.UpdateReset.status_exact",
    "Verif.UpdateReset.other_events",
    "Verif.UpdateReset.counterexample_auth_reset_failed"
   ],
   "note": "Exact for updates that notify only values other than the two success values, which is what the update does. The last sentence is false when the reset of the authorization fails: it stays and only a log entry tells (`counterexample_auth_reset_failed`; a comment in the code accepts this). The update and the checks are given by their results."
  },
  {
   "property": "C157",
   "status": "proved",
   "theorems": [
    "Verif.MsgRoute.parse_exact",
    "Verif.MsgRoute.find_exact",
    "Verif.MsgRoute.process_routes",
    "Verif.MsgRoute.response_exact",
    "Verif.MsgRoute.failure_exact"
   ],
   "note": "For the MCTP protocol; other protocols of the multi-handler are not part of this model. Assumes a payload inside its buffer and buffers shorter than 2^32 - 64 bytes. Responses are exact for handlers that keep the position of the payload and stay within the room they were given."
  },
  {
   "property": "C158",
   "status": "partial",
   "theorems": [
    "Verif.PeriodicTask.runs_next_partial",
    "Verif.PeriodicTask.clock_error_exact",
    "Verif.PeriodicTask.prepared_exact",
    "Verif.PeriodicTask.counterexample_longest",
    "Verif.PeriodicTask.counterexample_starvation"
   ],
   "note": "The choice is exact for times below 2^32 - 1 milliseconds; a handler due in exactly 2^32 - 1 is not seen (`counterexample_longest`). The last sentence is false: while an earlier handler in the list is ready, a later one that is due never runs (`counterexample_starvation`)."
  }
 ]
}