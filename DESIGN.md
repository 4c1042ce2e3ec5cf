# A formal model of Project Cerberus in Lean 4

The subject is the portable firmware core in `/repo/core` (C). The model is in
`lean/Verif/`, one directory per C module:

* `Model.lean` – the C functions, transcribed one by one as total computable Lean
  functions. Every definition cites the file and lines it models and says what it simplifies.
* `Spec.lean` – the small vocabulary used to state the properties (numbers, windows of byte
  strings, logs, standard encodings). It does not mention the model. Small specs live at
  the head of `Props.lean`.
* `Lemmas.lean` – helper lemmas.
* `Props.lean` – the property theorems (and nothing else) with a concrete `example` beside each
  that shows the hypotheses can be met.

`MANIFEST.json` maps property ids to theorem names. `properties.jsonl` has the English text.

## Trusted base

* Lean 4.33.0's kernel. Theorems may depend on `propext`, `Classical.choice`, `Quot.sound` only
  (`vcheck` audits this). There is no `sorry`, `axiom`, `native_decide`, `bv_decide`.
* The reading of the C code into Lean, which is by hand. Nothing checks it mechanically; the citations
  are there so a reader can. General conventions:
  - Bytes are `UInt8`; C buffers are `List UInt8` (a pointer + length pair is a list; a pointer into
    the middle of a buffer is an offset). Machine integers are `Nat` with an explicit `% 2^n`
    where C could wrap, or `UInt8/16/32`/`BitVec` where bits matter. `size_t` is 32 bits unless noted.
  - Out-of-bounds access, NULL dereference and use of uninitialised data are modelled as distinct
    outcomes (`oob`, `fault`, ...) where a property is about memory safety. Elsewhere the theorem's
    hypotheses exclude them.
  - NULL argument checks that only return `*_INVALID_ARGUMENT` are dropped unless stated.
  - Crypto primitives (hash, HMAC, AES block, signature check, RNG) are parameters: the theorems hold for every
    function in their place. Where collision resistance would be needed, the statement is "or a
    collision is exhibited". Calls that can fail take their outcome from an oracle parameter.
  - Flash is a function from addresses to bytes, erased = 0xFF, programming ANDs bits (NOR).
  - Mutexes: code under a lock is one atomic step. Where the code releases a lock between steps and the
    property is about schedules, each critical section is a step of an interleaving model.

Not modelled: compilation, alignment/endianness of packed structs other than as cited, task stacks, driver/HAL
code (`/repo/projects`, `linux`, vendor ports), mbedTLS/OpenSSL wrappers, X.509 builders, hardware timing.

## Disagreements: properties that are false of the code

The English property stays in `properties.jsonl`; a theorem proves the negation with a concrete
witness and a `_partial` theorem proves what does hold.

| id | what the code does |
|----|--------------------|
| C09 | `asn1_get_item`: `header_length + *length` wraps for a 4-byte length ≥ 0xFFFFFFFA (32-bit `size_t`): an item outside the buffer is reported. `asn1_decode_integer` reads one byte past a zero-length INTEGER. |
| C12 | `ecc_der_decode_private_key_no_copy`: skipping the extra zero byte of a 33/49-byte key does not reduce `length`; the OID comparison can read one byte past the buffer. |
| C13 | `base64_encode`: the size check wraps on a 32-bit `size_t` for 1 GiB or more. |
| C16 | `kdf_nist800_108_counter_mode` with `key_len == 0` returns an uninitialised status. |
| C21 | `mctp_interface`: the "is a response expected" check and its use are in different critical sections; a requester timing out in between leaves a NULL response buffer to be used, or the response goes to the next request. |
| C23 | `logging_memory`: `clear` keeps the id counter but a restart of an emptied log starts the counter at 0, so ids are reused. |
| C25 | `state_manager`: an entry of which only 1-3 bytes were programmed when power was lost counts as valid and restores default settings; a half-erased old sector can restore stale settings; when a damaged entry forces a move to the other sector and erasing the old one fails, a successful store is lost at the next boot. |
| C28 | `flash_check_copy_region` computes the end of a range modulo 2^32; ranges that leave the address space are not compared correctly. |
| C29 | A store with length-only headers (`flash_store_contiguous_blocks_use_length_only_header`) loses data whose length is 0xa500-0xa5ff: the high byte is taken for the marker of the newer header. Set-up multiplies block size and count in 32 bits, so a region larger than the address space is accepted, and the end of the topmost block of a store growing downwards is not checked against the device. |
| C30 | `flash_updater_write_update_data` compares with the size of the region, not with the announced update length, so it accepts more data than was prepared (and erased). `flash_updater_apply_update_offset` with an offset beyond the region wraps the region size. |
| C31 | `heap_with_defrag_allocate` does not check for wrap-around: on a 32-bit target a request of 0xFFFFFFF0 bytes makes size plus control block 0, so any free block "fits" and a control block is written behind the arena; a request of 0xFFFFFFFD bytes or more is rounded to 0. `heap_with_defrag_allocate_zeroize` multiplies without an overflow check. |
| C32 | When the erase after a remove fails, the key is still returned. Without spare sectors the cache marks itself uninitialised, the key manager initialises it again, the sector validates and the same key is handed out a second time; with spare sectors this happens after a reset. |
| C32 | `key_cache_flash_add` checks the requestor of the add slot before it checks for a full queue. Once a key was removed, the separator slot belongs to no requestor (0xFFFF), so adding to a full cache returns `KEY_CACHE_MEMORY_CORRUPTED` and takes the cache out of service. The key manager asks `is_full` first. |
| C32 | `physical_id` has ten bits; with more than 1024 sectors, sector 1024 is recorded as sector 0. |
| C33 | The arrangement loop runs while `mid < high`, so the last sector is never classified: with exactly one usable sector too few no error is reported. |
| C35 | `pcr_set_tcg_event_type` and `pcr_set_measurement_data` also change constant measurements; the digest then no longer matches the event type reported with it. |
| C37 | `pcr_get_measurement_data` with flash data of length 0 and an offset > 0: `length - 1` wraps and flash content behind the address is returned. |
| C39 | The two logs are read in chunks with no lock over the whole; an update between chunks mixes two logs. |
| C40 | `pcr_update_buffer_common` reads `measurement_list[index]` before the bound check if the event is included. |
| C42 | When the `post_verify` hook fails, `manifest_manager_flash_verify_pending_manifest` reports the failure but leaves the pending manifest valid, so it can be activated (`post_verify_failure_activates`). A setting of the active region that was not stored before a restart brings the older manifest back (`lost_setting_reverts`). |
| C43 | `manifest_manager_flash_get_manifest_region` reads `is_valid` after releasing the lock: a handle can be returned without a reference, or a reference be counted without a handle. The latter blocks the region until the next restart (`lost_reference_permanent`). |
| C45 | Version 1 manifests: `manifest_flash_parse_header` reads the header, and `manifest_flash_verify_v1` hashes it again from flash. The first copy (identifier, lengths) is what is used later, so it is signed only if the flash did not change in between (`v1_header_unsigned`). Version 2 hashes the copy in memory. |
| C45 | `manifest_flash_verify_v2` computes lengths as differences of addresses without checking their order (`sig_addr - next_addr`, `offset - next_addr` after an over-long platform identifier, which is not compared with the length of its element). A negative one becomes a length of almost 4 GiB; only the error of the flash driver at the end of the device stops the loop. |
| C46 | `manifest_flash_read_element_data_common` returns without freeing the memory it allocated when the digest of the element is wrong (line 1135) or hashing cannot be started (line 1097); `*element` then points to data that were not authenticated. Not part of the model's result. |
| C48 | `authorized_data_with_aad`: the header's token length is not compared with the length of the token verified. |
| C50 | `session_manager_encrypt_message` returns success without encrypting when the message is shorter than a header; the caller (`cmd_interface_protocol_cerberus_secure.c:72`) then still sets the encryption flag. |
| C58 | `session_manager_decrypt_message` refuses messages of at most 28 + 5 bytes, but an encrypted message that is only a header has exactly 33 bytes: requests without payload (for example for the log information) cannot be sent encrypted. |
| C59 | `session_manager_setup_paired_session` copies the key from the key store with its stored length into 32 bytes on the stack. When saving a new pairing key fails, the session key has already been replaced while the error is reported; the other side then uses another key. |
| C59 | `session_manager_ecc_establish_session` uses `keys->alias_cert` after releasing the keys. Not modelled. |
| C51 | `counter_manager_registers_increment` is a non-atomic read and write. |
| C54 | `config_reset_restore_defaults` returns the status `CONFIG_RESET_NO_MANIFESTS` left over from the last list of manifests when nothing is configured after it: a reset that cleared everything is reported as failed (`false_alarm`). |
| C60 | `cmd_channel_send_packets` gives up the channel lock while it waits for a busy bus, so that another message gets between the packets of one (`mixed`). |
| C61 | `firmware_update_write_image` sets `img_good` before it asks for the page size: if that fails while a bad recovery image is being replaced by `firmware_update_run_revocation`, the recovery image counts as good, and the next update erases the only good image (`bricked_after_page_failure`). |
| C61, C64 | `firmware_update_process_manifest_revocation` takes the key manifest from the firmware image object, and uses it after `firmware_update_write_image` loaded the old recovery image into the same object for the backup; firmware_image.h says that the manifest is not valid after that. If the manifest follows the loaded image, as that text suggests, the wrong revocation is recorded: none (`not_revoked`), or one that bricks the device (`bricked_by_stale_manifest`). |
| C63 | `firmware_update_run_update` does not check that an image digest is set when the updater requires one. A reset, a failed `prepare_staging`, or `prepare_staging (0)` forget the digest, but leave no remaining bytes (`unauthorized_installed`). |
| C65, C66, C69 | Loops that look for the next region at or after the end of the last one never end for an empty region (allowed by the parser of version 1 manifests, pfm_flash.c:980-981) or one that ends at 0xffffffff, whose end wraps to 0 (`full_verification_hangs_empty_region`, `full_verification_hangs_end_of_space`, `filter_all_hangs_empty_region`). A region that starts inside another one is skipped (`full_verification_rejects_overlap`, `filter_all_overlap_incomplete`). |
| C68 | `host_fw_are_images_different` compares all hashes (signatures) over the length of the first one of the list: a SHA-512 hash after a SHA-256 one is compared in its first half only, so that a changed image counts as unchanged and its verification is skipped (`images_different_misses_long_hash`); in the other order, bytes after the hash are compared (`images_different_compares_junk`). Regions inside others are not compared (`regions_different_misses_overlap`). |
| C69 | `host_fw_restore_flash_device` erases whole blocks between the read/write regions; read/write data in a block that is shared with read-only data is lost (`restore_erases_neighbour`). |
| C70 | After a power-on that failed because no flash passes verification, the failed rollback has still returned the flash to the (held) host, and the next soft reset finds nothing dirty and releases it: it runs unverified firmware with an active PFM (`failed_power_on_then_reset_runs_unverified`; host_processor_dual.c:158-159, host_processor_filtered.c:1101-1106), while `needs_config_recovery` reports that all is well (`failed_power_on_looks_good`). `power_on_reset` is documented to leave a state in which other functions behave correctly. |
| C70 | `host_processor_dual_full_bypass` puts the filter into bypass mode, and only `initialize_flash_protection` (host_flash_manager_dual.c:261) takes it out. A power-on that succeeds with an active PFM does not call it, so the read-only flash stays writable (`full_bypass_keeps_bypass`). |
| C70 | The status of `activate_pending_manifest` is ignored (host_processor_filtered.c:639, host_flash_manager_dual.c:193): the host then runs firmware that the active PFM does not allow (`failed_activation_runs_other_pfm`). |
| C72 | Run-time verification is documented not to apply new firmware before the next reset (host_processor.h), but switches the devices at once (`run_time_applies_update`). `get_next_reset_verification_actions` ignores the setting for when firmware is applied (`next_actions_ignores_events`). |
| C73 | Full validation uses `version->blank_byte` after the list of versions was freed (host_flash_manager.c:220, 225; `full_validation_uses_freed_memory`). With a PFM that lists no firmware, any flash content is valid at a boot (`empty_pfm_validates_anything`); a full validation then reads through a pointer that was never set. |
| C75 | With a known good PFM, images are only verified if they differ from that PFM's. Nothing checks that the flash was ever verified with the version that is on it (`known_good_skips_verification`). |
| C78 | `SPI_FLASH_BOUNDS_CHECK` (spi_flash.c:58-67) adds address and length in `size_t`; with 32 bits the sum can wrap, so address 0x100 and length 0xffffff80 pass (`huge_length_passes`). |
| C79 | `spi_flash_enable_4byte_address_mode` (spi_flash.c:1882-1924) does not check that the device is idle. After a write whose end was not seen, the device ignores the command, but the call succeeds and the driver reports the new mode (`switch_while_busy`). |
| C80 | `spi_flash_restore_device` (spi_flash.c:350-411) does not restore the address mode of a device that has only 4-byte addresses (discovery sets it, 1164-1166). The driver then sends 3 address bytes; detect, enable and force report success without changing it (`restore_loses_fixed_mode`). |
| C82 | `recovery_image_header_init` compares strings that need not be terminated in the data loaded from flash, before any signature check (`header_reads_outside`). A signed section with length 2^32 − 16 makes the loop in `recovery_image_verify` never end (`verify_hangs`). |
| C83 | `recovery_image_manager_get_active_recovery_image` (recovery_image_manager.c:183-192) reads `is_valid` again after the lock is released: a concurrent activation leaks a reference for ever or hands out an image without one (`get_active_race_leak`, `get_active_race_unheld`). |
| C83 | The image length is never compared with the size of the region (`image_larger_than_region`). Data written but not verified is parsed at the next reset, and a read error there fails initialization (`unchecked_data_stops_boot`). The active region is switched in RAM only (`activation_not_saved`). |
| C84 | `recovery_image_manager_erase_all_recovery_regions` (recovery_image_manager.c:376-396) notifies `deactivated` also if it fails because the image is in use; the image stays active but its measurement is cleared (`erase_in_use_told_wrong`). |
| C85, C86 | The message size announced by a requester is stored without a lower bound (cerberus_protocol_required_commands.c, `cerberus_protocol_get_device_capabilities`). The check that there is room for a response (cmd_interface_protocol_mctp.c:42) comes before the limit is lowered (cmd_interface_protocol_mctp_msft_vdm.c:39-40). With an announced size of 4, `max_response - 5` wraps and the next log request writes beyond the buffer (`negotiated_overrun`); with 12, responses are longer than negotiated (`small_size_exceeded`). |
| C85 | Get PFM Supported Firmware passes an identifier that need not be terminated to `strcmp` (`unterminated_id_reads_leftovers`). The check at cerberus_protocol_optional_commands.c:689 looks at the ciphertext length again, not at the HMAC length, so one byte behind the request is read (`short_unseal_reads_leftovers`). |
| C87 | `key_exchange_algorithm` of the attestation responder is one variable for all endpoints: endpoint A announces a session, endpoint B gets it (`session_of_another_endpoint`). A key exchange of type 1 with one byte of key length takes the other byte from the encryption trailer (`short_key_exchange_reads_trailer`). |
| C89 | A Get Device Capabilities request from the device's own endpoint identifier (not authenticated) overwrites its own capabilities, thereby the limit of everyone (`own_endpoint_limits_everyone`). |
| C90 | Heap and stack diagnostics return without `cmd_interface_prepare_response` (cmd_interface_system.c:284-292): plain text marked as encrypted (`stack_statistics_in_plain_text`). Requests without data cannot be sent encrypted, because `session_manager_decrypt_message` refuses a length of exactly header and trailer (session_manager.c:203-206): the unsealed key can only be fetched in plain text (`empty_requests_cannot_be_encrypted`). |
| C91 | After a short write within the end mark of a sector, `logging_flash_read_contents` subtracts 7 from a smaller `size_t` (logging_flash.c:283-286) and copies from beyond the entry buffer (`read_half_end_mark`). |
| C91 | Power lost after 3 to 6 bytes of an entry header: the identifier reads as 0xFFFFFFxx, and the next entry is programmed over the rest (`torn_header_overwritten`). Power lost between erasing and writing sector 0: `log_start` stays 0, where nothing is used, and the other fifteen sectors are not read (`first_sector_empty`, `erased_first_sector`). |
| C93 | `ocp_recovery_device_init_state` uses `device->cms->flash` and `device->cms->length`, i.e. the first region, for every flash region (ocp_recovery_device.c:104-114): undefined if the first region is not in flash (`flash_behind_memory`); the size of a second flash region is not checked (`second_size_unchecked`), and its erase mark is the base of the first one, so a write to it at a position other than 0 erases the first region even if that is read-only (`second_region_erases_first`). |
| C93 | Flash is erased sector by sector from the start of the region only; data for another position is programmed over what is there, and the request succeeds (`jump_corrupts`). A flash write that reports fewer bytes than asked for is a success (`short_write_accepted`). |
| C93 | Region types 0x08 and 0x0d are documented as readable and writable and checked as such at initialization, but writes and activation compare the type without masking the polling flag and refuse them (`polled_region_refused`). |
| C95 | An unknown command code does `protocol_status \|= 1` (line 153): a refused parameter (2) becomes a wrong length (3), a wrong checksum (4) becomes 5 (`unknown_command_mixes`). It also leaves the earlier command active, so a read that follows is answered for that one (`stale_command`). Writes to read-only regions are errors that are not reported (`refused_region_not_reported`). |
| C96 | `checksum_update_smbus_crc8` has an 8-bit length. For a byte count of 255 the length is 256, so nothing of the block is covered: the right checksum is refused (`long_block_refused`), the checksum of address and command is accepted with any data (`long_block_accepted`), and responses of 255 bytes have a wrong checksum (`long_response_pec`). |
| C97 | `device_unlock_token_authenicate` takes the length of the policy from the position given by the token length in the data, but verifies the signature with the length of the stored token. If the two differ, the policy lies (partly) outside the signed part (`policy_not_covered`). An authority that signs only well-formed containers excludes this. |
| C98 | `device_unlock_token_init` accepts counters longer than 255 bytes and does not compare its context length and the nonce length with those of the token manager; the length byte of the counter is then truncated or the nonce is not where `device_unlock_token_get_nonce` looks. These are conditions on the configuration (`Unlock.Cfg.WF`). |
| C100 | The error answers of the TDISP responder (24 bytes) are written without a check of the room for them, unlike the other answers (`tdisp_small_room`). |
| C101 | `tdisp_start_interface_request` says it clears the stored nonce but clears only the message buffer: the same request starts the interface again (`nonce_reusable`). `STOP` leaves the context alone, too; unless the driver clears it the interface cannot be locked again while the old nonce still starts it (`stop_keeps_nonce`). If the nonce cannot be stored after the driver locked the interface, the answer is an error but the interface stays locked (`lock_error_but_locked`). |
| C102 | `firmware_update_observer_tdisp_on_prepare_update` skips interfaces whose state or context cannot be read: a failure allows the update (`update_fails_open`). |
| C103 | `ide_km_query` clears 15 bytes of the payload before it compares the room with 15 (`ide_small_room`). `ide_km_key_prog` leaves the key in the buffer if the request has the wrong length, and answers short requests with old bytes of the buffer (`ide_wrong_length_keeps`). |
| C104 | `doe_interface_encode_message` does not clear the up to 3 bytes that fill the last word; they are sent (`doe_padding_stale`). |
| C105 | A failed update leaves its context open without the negotiation messages; later updates and digests succeed (`transcript_hole`). `update` compares the session number with the compile time maximum, not with the number of sessions that have engines: the unassigned context uses engine 0 of M1/M2, which then fails for good (`missing_session_blocks_m1m2`). A TH update without `use_session_context` has no index check (`th_update_out_of_bounds`). |
| C106 | `decrypt_message` (spdm_secure_session_manager.c:949) allows an application length up to the whole decrypted text although two bytes of it are the length field: two bytes of the tag are handed on as data (`length_not_checked`). The sequence number is advanced before the message is authenticated (1043-1048), so one forged message makes the next real one fail, and the session is marked as current (`forged_takes_number`). `encrypt_message` compares the total with the largest response and not with the room behind the outer headers (1127): the tag can be written behind the buffer (`answer_past_buffer`). |
| C107 | Read but not part of the claim: the handshake secret is extracted from `hash_size` bytes of the DHE secret instead of the size of the secret (spdm_secure_session_manager.c:583-584, 631-632), so with SHA-256 and P-384 a part of the secret is not used. With the policy of dropping, a FINISH with a wrong HMAC returns without unlocking session and context (spdm_commands.c:4130). If the state cannot be read, `spdm_get_measurements` uses a null transcript manager (3141, 3409). |
| C109 | `firmware_component_get_image_length` adds the header and the length of the image (any 32 bit value) in `size_t` without a check (firmware_component.c:176-179). Where `size_t` has 32 bits it wraps: an image of 2^32 - 10 bytes has a total length of 4, and the signature checked is over the first four bytes of the header. Proved with a witness (`verification_wraps`). |
| C108 | `firmware_component_verification` and a later `firmware_component_load` read the flash twice; if it changes between, an image that was never signed is loaded (`verify_then_load_unsafe`). `firmware_component_load_and_verify` does not have this (`load_authentic`). |
| C112, C113 | `riot_key_manager_store_certificate` tests `root_ca.cert` before it takes the lock of the store (riot_key_manager.c:169-175). A verification between test and save puts a chain into use; the save then replaces a stored certificate of the locked chain (`race_store`). The verification it triggers overwrites the pointers of the certificates in use, whose memory is lost, and if it fails the device identity stays in use without its root CA (`race_leak`), or the intermediate CA without root CA (`race_inter`). |
| C112 | `riot_key_manager_get_root_ca` does not take a lock: while a chain is being checked it gives the unchecked root CA, and the memory is released when the check fails (`root_before_check`). |
| C115 | With an intermediate CA but no root CA (reachable by the race of C113) `get_digests` gives 3 digests, `get_certificate` accepts numbers 0 to 3 and gives the device identity for 0 and 2 (attestation_responder.c:171-180, 209-250; `no_root_mismatch`). The CA pointers are fetched before the lock of the keys is taken (168-169); if the chain is removed in between, the result is success with a null certificate (`removed_chain_null`). |
| C117 | `get_digests` takes the lock of the keys and then the one of the responder (attestation_responder.c:42-68), `challenge_response` the lock of the responder and then the one of the keys (287-342): two tasks can deadlock (`digests_challenge_deadlock`). |
| C119 | If the measurement of an intrusion fails, only the event data changes; the PCR keeps the measurement of a closed chassis (intrusion_manager.c:28-32, commented there; `stale_measurement`). An intrusion that could not be stored is forgotten with the next check (`lost_intrusion`). |
| C120 | `tpm_read_header` makes a new header after any read error when called with `init`, also for increments and at a soft reset (tpm.c:98-127): a single failing read sets the counter back to 1 (`read_error_resets_counter`) or drops a scheduled clear (`read_error_drops_clear`). A failing erasure does not keep the clear scheduled (tpm.c:45-70; `failed_erase_forgotten`). The header is rewritten in place, so a loss of power during an increment loses both (`torn_increment`). |
| C121 | `event_task_freertos_notify` looks at `running` after it has released the lock (event_task_freertos.c:83-86). If its own handler was unknown, it may see the handler of another task and give a second notification; the task then clears `running` of a later event without executing it (`cancel_loses_event`). |
| C122 | `impactful_update_authorize_update` arms the timer under its lock (impactful_update.c:89-97); the timer calls back under the lock of the timer (freertos/platform.c:137-143, linux/platform.c:256-262), and the callback takes the lock of the update (impactful_update.c:123): deadlock (`authorize_expire_deadlock`). |
| C123 | With several data checks for one version set only the result of the last one counts: `status` is overwritten by each check (attestation_requester.c:3086-3149; `earlier_check_ignored`). Data without bytes and an empty list of digests leave `result`/`status` without a value (3027-3041, 347-363). |
| C124 | A key that is cached from an earlier attestation is used as long as the DIGESTS response has the same digest; the root rule of the component type attested now (another type, or a new CFM) is not looked at (attestation_requester.c:4185-4198; `root_rule_skipped`). A chain with the root only reads an uninitialised certificate (4105-4123), modelled as undefined behaviour. |
| C125 | GET_MEASUREMENTS for SPDM 1.2 repeats the negotiation (2515-2524), and what the device says then about certificates decides about the signature; the device state is set from the last answer. So a device can send one measurement unsigned and is AUTHENTICATED (`downgrade_accepted`). The number of blocks and the sizes of values are not compared with the length of the record, so that values can lie outside the signed part (`value_outside_accepted`). The response code is never compared with the request. |
| C126 | A device that was AUTHENTICATED keeps this state through the attestation; the error path for a bad challenge signature sets no state, and the end of the function counts it as a success (4490-4521; `bad_signature_stays_authenticated`). |
| C128 | `UINT32_TO_BIGENDIAN` (RiotKdf.c:28-32) shifts the masks and not the masked values (`i & 0xff000000 >> 24`), so it is the identity: counter and length enter the derivation with the least significant byte first (`kdf_not_sp800_108`). |
| C129 | `CHECK_SPACE2` (RiotDerEnc.c:47) adds the length of the data to the free space, so data of 32 bytes or more is never refused and overruns the buffer (`never_refused`, `overflow`). Lengths from 65536 on are announced wrongly or not at all (`long_length_wrong`, `no_length`), an integer with 128 content bytes gets length byte 0x80 (`int_indefinite`), and the first two arcs of an OID are always put in one octet (`oid_first_wrong`). |
| C130 | The position plus the length of a field is computed modulo 2^64 with a length sign-extended from 32 bits, so a certificate can make the copy of its subject name read and write outside the buffers (`subject_overread`), and a key can be located outside its encoding (`key_range_wrong`); an empty BIT STRING gives length 2^64-1 (`empty_key_wrong`). A name with a zero byte is cut there (`subject_cut`). |
| C131 | With C129, an extension (or public key) that does not fit the certificate buffer is written past its end (`extension_overflow`). With C130, `create_ca_signed_certificate` hashes 2^64-1 bytes for a public key with an empty BIT STRING (`empty_key_overread`). x509_cert_build.c:689 and 806 jump past the release of the DER key (`leak`). |
| C132 | The buffer for a device identifier counts 2 bytes for each header (x509_extension_builder_dice_ueid.h:15-24), so an identifier of 256 bytes or more is always refused with its own buffer (`ueid_256_refused`). With a buffer of the caller, the extensions for key usage and TCB information overrun it, since the encoder's check for space does not work (`static_overflow`, `tcb_static_overflow`; see C129). A digest has no length, so one shorter than its algorithm is read past its end (`short_digest_overread`). |
| C133 | Generating a Device ID again replaces key and encoding before the certificate (riot_core_common.c:39-83, 85-151). If the HMAC for the serial number fails, the old certificate stays valid beside the new key, and alias certificates are signed with a key that is not the certified one (`regenerate_breaks_chain`). If creating the certificate fails, the flag stays set with a null context, which the getter dereferences (`regenerate_null_cert`). The same holds for the alias key (`alias_key_mismatch`). |
| C133 | A repeated generation overwrites the pointers of the failed one, so the private key and its encoding are never released or cleared (`retry_loses_key`). The seed stays on the stack if the key cannot be derived (`seed_left`, lines 131-142), the HMAC of the FWID always (`alias_secret_left`, lines 188-267), and release frees the alias encoding without clearing it, unlike the one of the Device ID (`alias_encoding_not_wiped`, lines 428-458). |
| C134 | The result of recording the measurements of a verification is ignored (firmware_pfm_verify.c:265). After a good run, a run that fails and whose recording fails leaves the PCR with the earlier success, although the log reads the failure (`stale_success`). |
| C134 | Initialisation does not ask for different measurement types; with one type for all only the last value can be found in the PCR (`same_type`). Versions that agree up to the size of the buffer are measured alike (`version_cut`), and nothing of the flash is checked if no image is flagged for validation (`nothing_checked`, documented in the header). |
| C135 | The length of raw data is read first and the data later, and the result of the read is taken as it is (spdm_measurements.c:103-119): data that grow in between give a block cut off at the end of the buffer that looks complete (`grown_data_truncated`). |
| C135 | The index of a block has 8 bits and is not checked: the 255th measurement gets the reserved index 0xff (`reserved_index`), and the 239th the index of the device ID, which then cannot be read, although its length is announced for that index (`index_clash`). |
| C135 | `get_all_measurement_blocks_length` announces a digest for a measurement without data, but no digest can be made with an algorithm other than the one of the PCR, and then there is no record at all (`no_record`). |
| C136 | The total length is kept in the 16-bit length field of the header (spdm_certificate_chain_dice.c:30-82) and the remainder is computed from it: a chain of 65536 + k bytes is taken as complete after its first k bytes (`long_chain_cut`). |
| C136 | A GET_CERTIFICATE request that fails after it has been hashed (length zero, hash failure) stays in the M1/M2 transcript without its response (`failed_request_kept`), so a later challenge cannot verify. |
| C136 | GET_DIGESTS within a session resets the transcript of the connection outside of it (`session_resets`). |
| C136 | An offset behind the end of the chain is answered with an empty portion (`beyond_end_answered`); DSP0274 asks for an error. |
| C136 | The space for certificates is `max_response - 8` without a check (spdm_commands.c, get_certificate): a maximum below 8 wraps (`small_buffer_exceeded`). |
| C137 | A bit count of 0 passes the checks and shifts a 32-bit value by 32 (mmio_register_block.c:132, 179), which is undefined (`empty_field_undefined`). |
| C137 | The distance of a physical address from the block has 64 bits and is passed as `uintptr_t` (mmio_register_block.c:303, 339): with 32-bit pointers an address outside of the block can access a register in it (`foreign_address_accessed`). |
| C137 | Writing a field is a read and a write without a lock; two tasks can lose a field (`concurrent_write_lost`). |
| C138 | The bytes left behind an algorithm table are computed as an unsigned difference (spdm_commands.h:416-418) that wraps for a table behind the payload, and the declared length is not compared with the payload (spdm_commands.c:2153): tables are then read from stale bytes behind the payload, or outside of the buffer (`declared_beyond_payload`, `read_beyond_buffer`). |
| C138 | Algorithms of the connection are written before the request is known to be good (spdm_commands.c:1870-1957); the next request, without that table, is answered and the connection keeps the group of the refused one (`stale_group`). |
| C138 | A GET_CAPABILITIES request changes the version of the connection before the state is checked (spdm_commands.c:1571-1592, `refused_version`). |
| C138 | Nothing in common is answered like an agreement (`nothing_in_common`); DSP0274 leaves the reaction to the requester. A preference with several bits is chosen as a whole (`several_chosen`). The response is 4 bytes longer than the request, its room in the buffer is not checked (`write_beyond_buffer`). |
| C139 | The table is cleared to zero, and zero is `DEVICE_MANAGER_AUTHENTICATED` (device_manager.c:107, device_manager.h:137): until a PCD fills the table the status report, which is measured into a PCR, lists every device as authenticated (`counterexample_fresh`). |
| C139 | The report starts a header whenever the component differs from the previous device (device_manager.c:2426-2434), but the buffer is sized for distinct components (113-115): overrun if the devices of a component are apart (`counterexample_interleaved`); uninitialised bytes are reported if there are fewer components (`counterexample_stale`). |
| C139 | `AUTHENTICATED_WITH_TIMEOUT` and similar states get no period (device_manager.c:1350-1361): the device is due at once (`counterexample_no_period`). |
| C140 | The loop over the candidates ends before the last one of the ring is looked at (device_manager.c:2216-2228); a new device there is not tried while the others wait, and since its timer has expired the requester does not sleep either (`counterexample_last_ignored`). |
| C140 | Removing the head of a ring of two or more leaves `mgr->unidentified` pointing to freed memory (device_manager.c:2114-2119, `counterexample_remove_head`). The requester removes only the device it was just offered, which is never the head then. |
| C140 | Only the first EID of a range is checked against the devices that are not attestable (attestation_requester.c:4934-4937): the rest of such a range is never discovered, and the own EID inside a range, or 0 after 0xFF, is (`counterexample_range_skipped`, `counterexample_own_eid`). |
| C140 | A bridge whose next handles never reach 0xFF keeps the requester reading and allocating for ever (attestation_requester.c:4891, `counterexample_endless`). |
| C141 | A failure response has `MCTP_CONTROL_PROTOCOL_FAILURE_RESP_LEN` = 4 bytes (mctp_control_protocol.h:22-28) of which only three are written; the fourth is what was in the buffer, possibly behind the request (`counterexample_stale_byte`). |
| C141 | A message without request bit and with completion code 0 is processed as if it were a request (cmd_interface_mctp_control.c:50-64), also a Set EID (`counterexample_response_processed`). The completion code of a two byte message is read behind the payload. The transport layer separates requests and responses by the tag owner bit, not by this bit. |
| C141 | Set EID changes the own EID before the bridge entry; if the latter fails the request is answered with an error but the EID stays changed (mctp_control_protocol_commands.c:72-85, `counterexample_failed_but_changed`). `mctp_control_protocol_set_eid` always returns 0, so observers are told of refused requests too (`counterexample_told_refused`). |
| C142 | Measurements of different kinds that are mixed are not all reported (assumption in the comment at cfm_flash.c:1306, TODO at 1335): a data check between two digests is skipped without an error, and the device is attested without it (`counterexample_interleaved`). |
| C142 | `cfm_flash_populate_digests` does not check how many bytes were read (cfm_flash.c:540-553): with an element that is shorter than its digest count says, uninitialized heap is used as digest of an allowed root CA or PMR value (`counterexample_root_ca_heap`, `counterexample_pmr_digest_heap`). |
| C142 | The length of PMR and allowed manifest elements is not checked (cfm_flash.c:436-461, 1508-1520): the rest comes from the stack (`counterexample_pmr_stack`, `counterexample_platform_stack`). |
| C143 | `pcd_flash_buffer_supported_components` reports one device for every component without bridge (pcd_flash.c:348-350, 359-361), but in the v3 format such a component has an instance count, which `pcd_flash_get_next_component` reports (`counterexample_list_count`). |
| C143 | pcd.h says that after a failed call with `first` freeing is not required. If no component is found the context is kept (pcd_flash.c:798-800), and a caller that relies on this loses the memory (`counterexample_first_leak`). |
| C143 | The length of a RoT element of format version 0 (pcd_flash.c:124-127) and of the power controller element (pcd_flash.c:268-279) is not checked; missing fields come from the stack (`counterexample_rot_format_zero`, `counterexample_power_stack`). |
| C144 | `RiotCrypt_SymEncryptDecrypt` converts the size to `uint32_t` (RiotCrypt.c:355); where `size_t` has 64 bits, of 4 GB of data nothing is encrypted and the result is success (`counterexample_4gb`). |
| C145 | `host_irq_handler_power_on` decides about swapping the flash by the last status (host_irq_handler.c:52-54), which after a failed bypass is that of the bypass: a host without recovery gets its flash swapped at the second attempt (`counterexample_swap`). If the second recovery attempt reports no image, the flash is not swapped although the first attempt can have destroyed it (`counterexample_no_swap`). |
| C145 | `host_irq_handler_force_recovery` does not stop for `HOST_PROCESSOR_FLASH_NOT_SUPPORTED` (host_irq_handler.c:131-138), which `host_processor_filtered_apply_recovery_image` returns (host_processor_filtered.c:1248) and power-on treats as final: it never ends (`counterexample_force_forever`). |
| C146 | `Base64Decode` stops at the first character that is not of the alphabet and returns success (RiotBase64.c:147-192, `counterexample_decode_invalid`), and sets `*OutLen` only on failure (`counterexample_decode_size`). |
| C146 | `Base64Encode` computes the size in `size_t` (RiotBase64.c:214-217); with 32 bits it is 1 for 3 GB of data (`counterexample_encode_size`). |
| C147 | `flash_virtual_ram_init` accepts every size, but `flash_virtual_ram_block_erase` always sets 256 bytes, so erasing the last block of a buffer whose size is not a multiple of 256 writes beyond it (flash_virtual_ram.c:93, `counterexample_erase`). |
| C147 | `flash_virtual_ram_write` returns the length as an `int` and `flash_virtual_ram_get_device_size` the size as a `uint32_t` (flash_virtual_ram.c:17, 74): wrong from 2 GB and 4 GB (`counterexample_write`, `counterexample_size`). |
| C148 | `manifest_pcr_measure_manifest` updates three measurements one by one and stops at the first failure (manifest_pcr.c:150-202): the hash can be that of the new manifest and the version that of the old one (`counterexample_mixed`). If the hash cannot be read, all stay those of the old manifest (`counterexample_stale`). The observers drop the status (pfm_observer_pcr.c:16). |
| C148 | `host_processor_observer_pcr_update` only logs a failed update (host_processor_observer_pcr.c:25-31): a host in bypass mode can be attested as validated (`counterexample_host`). `host_processor_observer_pcr_init` does not check the measurement type, and a wrong index is read before it is checked in pcr.c (`counterexample_host_init`, see C40). |
| C149 | `error_state_exit_group_exit_error_state` stops at the first handler that fails and does not undo the others (error_state_exit_group.c:19-24): the request fails, but some channels send again (`counterexample_exit`). |
| C149 | `cmd_channel_error_state_send_packet` tests the flag without a lock (cmd_channel_error_state.c:33-34): a packet can be sent after the error state was entered (`counterexample_race`). |
| C150 | `ecdsa_deterministic_k_drbg_instantiate` accepts the raw digest and does not reduce it modulo the group order as RFC 6979 does (`bits2octets`; ecdsa.c:76): for such a digest the nonce is not that of the RFC (`counterexample_raw_digest`). |
| C150 | A zeroised `ecdsa_deterministic_k_drbg` names HMAC-SHA1 and counts as in use (`first` is false), so `ecdsa_deterministic_k_drbg_generate` succeeds after `clear` or a failed instantiation, with a nonce known to everybody (ecdsa.c:100, 139-144; `counterexample_after_clear`). |
| C151 | `ecdh_ecc_hw_generate_random_key` and `ecdsa_ecc_hw_generate_random_key` clear the keys when the consistency test fails but not when the generation fails (ecdh.c:236-239, ecdsa.c:426-429): a partly written private key stays in the caller's buffer (`counterexample_hw_failure`). |
| C152 | `RIOT_SHA1_Update` adds the length to the bytes of the open block in 32 bits (RiotSha1.c:136): near 4 GiB the sum wraps around and the whole input is copied to the 64-byte buffer (`update_overflow`). `RIOT_SHA1_Block` takes a `size_t` and cuts it to `unsigned int` (RiotSha1.c:188; `block_truncates`). |
| C153 | `host_processor_single_config_read_only_flash` overrides the current device before it asks for access to the flash; when that fails the override stays, although the filter still uses the old device (host_processor_single.c:174-186; `counterexample_failed_switch`). `host_processor_single_bypass_mode` exchanges only the stored device, which an override hides (host_processor_single.c:87-95, with a TODO in the code; `counterexample_bypass_swap`). |
| C154 | `signature_verification_ecc_release` releases the key without clearing `key_valid` (signature_verification_ecc.c:237-242); a verification or a second release after it uses the released key (`released_not_recorded`). The error list calls a null key of non-zero length inconsistent (signature_verification.h, `SIG_VERIFICATION_INCONSISTENT_KEY`), but the code ignores the length of a null key, as the comment of `signature_verification_ecc_init_state` says. |
| C155 | `ephemeral_key_manager_execute` does not erase the temporary buffer: the last generated private key stays in memory after it was stored and given out (ephemeral_key_manager.c:70-90; `key_remains`). After a failed generation or a failed `add` the next execution does not wait, so a lasting failure is retried without delay (`wait_exact`). |
| C156 | When `reset_authorization` fails after an applied update, the authorization stays valid for further updates and the status reports plain success (impactful_update_handler.c:102-108, accepted in a comment; `counterexample_auth_reset_failed`). |
| C158 | `periodic_task_execute_next_handler` prefers the first of the handlers that are due, so a handler that is always ready keeps all later ones from running (periodic_task.c:56-77; `counterexample_starvation`); with C155, a lasting failure of key generation has this effect. A single handler due in 2^32 - 1 ms gives "no handlers" (`counterexample_longest`). |
| C56 | `device_manager_get_max_transmission_unit` accepts any packet size reported by a remote device; below 64 the in-place packetization of `mctp_interface_handle_request_message` overwrites response bytes not sent yet. |

(The table is updated as modules are proved; see MANIFEST notes.)

## Plan per property

* C01–C04 (`CommonMath`): arrays as `List UInt8`; `beNat` is the big-endian value. Loops become structural recursions
  over the (reversed) list. Theorems relate `beNat` of result and argument. Induction on the list.
* C05–C07 (`BufferUtil`): `buffer_copy` as a state transformer on (offset, remaining, output); fold over pieces equals
  `(pieces.flatten.drop off).take len`. Compare: accumulator of XORs; access trace as an explicit list.
* C08–C09 (`Asn1`): parser with `oob` outcome for reads; explicit 32-bit wrap. Roundtrip by case analysis on byte count.
* C10–C12 (`EccDer`): encoder/decoder on lists; reads via bounds-checked accessor; roundtrip for the three curves with all key bytes symbolic.
* C13 (`Base64`): encoder by blocks of 3; spec decoder independent; induction on blocks.
* C14–C15 (`AesKeyWrap`): in-place W/W⁻¹ on block arrays, with arbitrary permutation `enc`/`dec`; inversion by induction on step count.
* C16 (`Kdf`): loop with remaining length; HMAC a parameter; spec is the RFC text.
* C17 (`Checksum`): bitwise CRC as in C; linearity; polynomial spec; burst detection by invertibility of the step.
* C18–C21 (`Mctp`): packet construct/interpret at byte level; receiver as a step function over packets; invariant by
  induction; schedule model for the race.
* C22–C23 (`LoggingMemory`): ring buffer refines list of last n entries.
* C24–C26 (`StateManager`, `HostState`): vote per bit; sector-pair store with crash points; setters via masks.
* C27–C30 (`Flash`): flash as function; loops with fuel-free recursion on remaining length.
* C31 (`Heap`): word-addressed memory for a 32-bit target with the two doubly linked lists in it, exactly as the code manipulates them; invariant: control blocks tile the arena, the free list is the free blocks in address order, no two free blocks are adjacent; user-level histories (`Spec.lean`) of alloc/calloc/realloc/free/write. The code has no lock; calls are taken to be serialised by the caller. Not modelled: sub-word writes of the user.
* C32–C33 (`KeyCache`): FIFO refinement; classification loop.
* C34 (`Observable`): list refinement.
* C35–C40 (`Pcr`): banks as lists of measurements; window specs.
* C41–C43 (`ManifestManager`): state machine of the two regions with an invariant over all histories of calls and restarts; every
  flash operation is recorded with the state at that time. `Conc.lean`: interleaving model for the two parts of handing out a manifest.
  Not modelled: the erase of `clear_pending_region` and the writes run without the lock, so races with them are not covered by C41.
* C57 (`Pcr`): the map between sequential measurement ids and (bank, index) pairs, by induction over the banks.
* C44 (`ManifestVerification`): state machine with failure oracle.
* C45–C46 (`ManifestFlash`): verification and element reads over a flash whose contents may differ at every access; the message given to the
  hash engine is part of the state, and the invariant says that its byte `i` was read from byte `i` of the manifest.
* C47–C48 (`AuthToken`): `auth_token.c`, `authorization_challenge.c`, `authorization_global.c` and the fixed authorizations, both payload formats and
  `cmd_authorization.c`, for any number of challenge handlers and operations. A history is a list of requests with their answers; the specification
  reads the active token off that list. One request to a handler is one step (the handler holds its lock). Proved by an invariant relating the token
  buffer to the history. Time is a number per request; the timer may fail. C48 needs an authority that signs well-formed headers only.
* C49–C50, C58–C59 (`SessionManager`): `session_manager.c` and `session_manager_ecc.c` with the cryptographic functions as parameters. Each operation
  returns the calls that derive a session key or run the encryption; the theorem about initialization vectors is over the list of these calls for a
  history, by an invariant that relates every live entry to the calls made with its key. Sessions of an endpoint are the entries of the table that
  match it; every operation changes at most one entry (`Delta`).
* C51 (`Counters`): the two registers as 32-bit vectors; increments of several tasks as separate read and write steps; `counted`/`tally` are the specification.
* C52, C60 (`CmdChannel`): the receive loop as a step function over received packets, with transactions as specification; senders as a small-step
  system with the lock, where driver, clocks and scheduler are choices of the environment; invariants per call and for the whole wire.
* C53 (`CmdMsg`): the descriptor as offset and lengths in a buffer; invariant over all allowed sequences of operations.
* C54 (`ConfigReset`): the managers are an arbitrary function from item to status; the result records the calls.
* C61–C64 (`FwUpdate`): the regions and the revocation state are what survives a power loss; flash operations leave arbitrary contents while they run and
  when they fail, and every state passed through is recorded. Images are abstract, determined by as many bytes as their size. A small program logic
  (`Sat`, frames) gives a specification for each function; the invariant between requests is that the recovery image is good unless it is known to be
  bad, in which case the active one is good.
* C65–C69 (`HostFw`): host_fw_util.c on top of the flash model. The loops over regions take fuel; soundness is proved for every amount of it, the end by
  counting the regions that are still ahead, and the cases in which a loop does not end by induction on the fuel. `Spec.lean` defines what addresses regions
  cover, authentic images, versions on the flash, and what a filter allows.
* C70–C72 (`HostProc`): the host processor with two flash devices as computations over a state of flash, filter, reset and flags. Each driver call asks the
  environment whether it fails (and took effect anyway), and after every step the host may write what the filter allows and the dirty interrupt may arrive. All
  intermediate states are logged. A program logic (`Tri`, Lemmas.lean) carries the safety property of all logged states together with the invariants
  (`Inv.lean`); loops that retry forever take a bound and otherwise end in `hang`. Contents and PFMs are opaque, verification is a parameter. A crash at any
  point is covered, because a history starts in any flash and flag state.
* C73–C75 (`HostFlash`): `host_flash_manager.c`:25-393 over the flash, version and image checks of `HostFw`, with a heap: which objects are allocated, and whether
  one was freed twice. Memory contents after `free` are a parameter (`stale`). The PFM is an abstract table; its own reader is not modelled here.
* C76, C77 (`HostFlash/Filter.lean`): two devices with capabilities and modes, the filter's settings, the switch; each driver call succeeds, fails or is
  unsupported, as the environment says. Commands are logged with whether the host had access.
* C78–C80 (`SpiFlash`): `spi_flash.c` over a model of a SPI NOR device: page programming that wraps around, write enable latch, busy time, address mode, and
  what a reset does. Each transaction works, is lost, or fails after the device got it. With the wrong number of address bytes, a program or erase may change
  everything. Proved with a Hoare logic; `Safe` is the invariant for address modes: either all commands have 4 address bytes by themselves, or there is one mode.
  The abstract flash of `Flash` (used by the other modules) allows what `write_exact` leaves open: after a short write, the rest of the range may hold anything.
* C81, C82 (`Recovery.Model`): header, section headers, verification and application of recovery images over any flash content; `Spec` says what a well-formed image is, as
  a predicate on memory. Reads outside of a loaded buffer are an outcome of its own. The loop over sections has fuel; `verify_hangs` is stated for every fuel.
* C83, C84 (`Recovery.Manager`): the manager for one or two regions over the abstract flash of `Flash`, with resets and the saved host state. `Reach` are all histories from any flash
  content; an invariant says that only the active region is valid, that its image was verified and is in the cache, and that the region being updated is neither. The two
  halves of getting the active image are separate functions for the race.
* C85–C90 (`Protocol.Model`, `Protocol.Optional`, `Protocol.System`): all request handlers of the command interface in a state monad over the message buffer, where bytes that
  are not part of the request are unknown, and reading them or touching anything beyond the buffer is an outcome of its own. Everything outside of the handlers is reached by recorded
  calls, answered by an arbitrary function of the calls so far, constrained only by the sizes its interface promises (`Spec.Faithful`). One judgement per concern with rules for the monad:
  which bytes are known (`Safe`), which changes are made (`Effects`, against `Spec.effects`, a table of the requests), which header bytes stay (`Keep`). Establishing a session
  (session_manager_ecc.c) is a call. The requester side (responses of other devices) is not part of it.
* C91 (`LoggingFlash.Model`): sixteen sectors of 4096 bytes, flash that clears bits, the entry buffer, and the scan at initialization. Each flash operation has an arbitrary outcome
  (erase fails, write fails or is short, any number of bytes programmed); a loss of power is an outcome followed by a restart. Invariant (`Inv`): complete sectors from the oldest on, the
  one being filled, the buffer as its continuation; the scan is shown to restore the invariant from the flash (`Scan`, `Init`, `Crash`). Locks and read errors are left out.
* C92 (`Protocol.Answer`): a table of the answers to all commands, written as fields and refusals without buffer, offsets or lengths. `Exact`, `Exact2`, `Exact3` prove that
  each handler leaves exactly these bytes in the buffer (judgement `AV`); `Exact4` goes on to the message sent, in plain text and through the encryption of a session.
* C93–C96 (`OcpRecovery.Model`): the handler as functions on a world of control state, memory of each region, flash (the NOR model of C22 with arbitrary outcomes), erase marks and calls to the hardware.
  Undefined behaviour (a union read as something else, a copy beyond a buffer) and a loop that does not end are `none`. Safety by an invariant (positions are multiples of four, sizes of writable
  regions too, marks within the region) over all histories; transfers by induction on the pieces; actions and report by induction on the history against the small tables `action`,
  `recoveryAfter`, `writeError` and `readError`. The SMBus layer is a state machine whose events come down to calls of the handler. Debug log entries are left out.
* C97–C99 (`Unlock.Model`): the unlock interface as a state machine on top of the token manager of C47 (`AuthToken.newToken`, `verifyData`, `invalidate`), with the buffer writes and the parsers as functions
  that tell accesses outside a buffer apart. History invariant: the stored token is the one made last, with nothing unlocking or locking the device since. The RMA check is compared with the language of accepted
  data in both directions.
* C100–C102 (`Pcisig.Model`): the TDISP handlers on the message buffer, with the driver, the context store and the random numbers as parameters; accesses outside the buffer are a distinct result. Each handler is
  compared with a specification of replies and calls that does not mention the buffer; the nonce theorem is an invariant over runs (context is valid implies its nonce was issued last).
* C103 (`Pcisig.Ide`): same; the register loops are compared with the list of announced blocks. C104 (`Pcisig.Doe`): decode, dispatch, encode against a specification of the message format; the discovery walk by
  induction on the table.
* C105 (`Spdm.Transcript`): the transcript manager with the hash engines as explicit state (running hash or none) and failure oracles; refinement to a book that keeps one list of bytes per context, as a simulation
  over all operations, then induction over histories.
* C106 (`Spdm.Session`): the table of sessions, IV generation, decryption and encryption of one message with an abstract AEAD and failure oracles, byte exact in the message buffer; direct proofs of acceptance,
  soundness and frame; the table as a multiset of identifiers.
* C107 (`Spdm.Flow`): the request loop with the handlers at the level of sessions; the ghost outputs are calls of the engine, new keys and events. Invariant: every key is in one place and its counter is ahead
  of all its uses; state of a session and phase of its identifier agree. Induction over histories.
* C108–C111 (`FwImage`): headers, components and application images as computations in a state with an environment whose flash contents are a function of the number of the call, every call may fail. Inversion lemmas
  (`bind_ok`, `read_ok`, …) give what a success means; a Hoare logic (`Tri`) gives what every exit leaves behind. Copies use the theorems about `flash_util.c` of `Flash`.
* C112, C113 (`Riot`): both tasks as labelled steps split at the locks, a heap of blocks with `free` of a dead block as a distinct outcome, faults as arguments of the labels. Invariants over all label histories (`WF`, `Auth`), and over histories
  of uninterrupted operations (`Clean`). The X.509 engine is a predicate on chains.
* C114 (`OcpRecovery.Answers`): by cases on the model of C93–C96.
* C115, C116, C118 (`Attest`): functions over the certificates, the engines and the PCRs of one call, with an error for each failing step; the statements are equivalences with a separate specification (`chain`, `response`, `Allows`, `SeedIs`).
* C117 (`Attest.Locks`): the lock operations of each call as a list of actions, tasks interleaved by an arbitrary schedule; an order of the locks as invariant. The mutexes are not recursive.
* C119 (`Intrusion`): a fold over operations with the results of what they call; a three-way classification of operations as the specification.
* C120 (`Tpm`): the flash store as blocks with or without valid data, each write with its own outcome (success, failure, spoiled block, loss of power); histories.
* C121 (`EventTask`): labelled steps of any number of submitting tasks and of the event task, split at the lock and at the notification; an invariant over all schedules.
* C122 (`Impactful`): decision as a function; labelled steps of authorizations, resets and the timer with an invariant; the lock order with the framework of C117.
* C123 (`Requester`): the comparisons as functions; the specification speaks of numbers, masks and version sets only.
* C124-C126 (`Requester.Model`): one attestation over SPDM as a program over the device states, the key cache, two hash engines and a message oracle. `Run`/`Fetch`/`Accept` invert successful runs; `All` proves relations for all outcomes. The trace of evidence is a ghost variable.
* C127, C128 (`RiotSha`): words of 32 bits and the 64 byte buffer with its aliasing; the invariant says that a context stands for a message (complete blocks hashed, the rest in the buffer). The circular buffer of 16 words is related to the message schedule of FIPS 180-4.
* C129 (`RiotDer`): the builder works on a buffer, a position and a stack of open collections; a write outside the buffer is the outcome `oob`. A document is a tree; the invariant says what a call appends (`Exact`) and when it must succeed (`Fits`), and both compose over sequences and brackets.
* C130 (`RiotDer.Dec`): the walk over headers with 64 bit arithmetic. Safety is a postcondition of each step; for the positive part a position is related to the rest of the encoding (`At`).
* C131 (`CertBuild`): the functions as lists of builder calls over `RiotDer`; engines and allocator are parameters. Each function is shown to append its RFC 5280 structure; the envelope lemma gives the signed certificate, and the decoder theorem of C130 gives the issuer name of a child.
* C132 (`ExtBuild`): the builders are programs over the DER builder of C129; exactness and success come from the combinators used for C131. The estimate of the space for the TCB information is compared with the length of the encoding, case by case over the forms of each length.
* C133 (`RiotCore`): the state machine of the two generations with a fault for every engine call, over the models of the certificate builder (C131), key derivation and base64. An invariant ties flag, context, encoding and key together; the contents of the certificates then follow from the exactness theorems of C131.
* C134 (`FwPfm`): one run as a function of PFM, flash, state and a fault for every call, over the models of host firmware verification (HostFw) and of the PCR store (Pcr). Soundness from the theorems of HostFw; consistency of log and PCR by following the five recordings and showing that each leaves the other entries alone.
* C135 (`SpdmMeas`): blocks as functions of the PCR store model (Pcr); the separate specification is the wire format with a decoder, and the list of measurements. Soundness and completeness of one block from the theorems on measured data and digests of Pcr, then induction over the walk; the decoder is inverted block by block.
* C136 (`SpdmCert`): the DICE chain and the two handlers that serve it; the separate specification is the chain as bytes and a requester that collects portions. The copies are `copyAll_window` of BufferUtil; the requester is handled by induction over the portions with the prefix received so far.
* C137 (`Mmio`): registers as `BitVec 32` by offset; the separate specification is single bits. Masks are characterised once by `getLsbD`, the rest is case analysis and induction over histories.
* C138 (`SpdmNeg`): message buffer as bytes with the payload as a prefix, so that reads behind the payload are values and reads behind the buffer are a distinct outcome. The specification has the request as a list of tables; the walk over the buffer is proved to parse exactly these (both directions) by induction over the tables. `common & -common` is proved to be the lowest bit.
* C139 (`DevSched`): table as a list, time as a number, timers as due times. Fairness by the cyclic distance of the device from the last one offered, which falls with every offer of another device; cadence and "never" by induction over histories; the report by induction over the groups, with the buffer as written part followed by old bytes.
* C140 (`Discovery`): the ring as a list from the head on; a removal that leaves a dangling head is a distinct outcome. The routing table is a relation between the bridge's answers and a finite list of parts, so that reading it is sound and complete by induction, and a bridge without such a list is shown to be read without end. The round of discovery is an induction over the candidates not tried yet.
- **C141** (`MctpCtl`): messages as buffers with a payload length; requests, responses and routing tables in the specification as bytes. The handlers are computed on a buffer that starts with the request of the specification and goes on with anything; the history theorem is an induction with these; in-buffer and only-Set-EID are case analyses over arbitrary messages.
- **C142** (`CfmFlash`): a manifest as the list of its elements; the specification says which elements a component has. A cursor is always between two children; the next element of a type is the first child of that kind behind it. Contents are decoded by induction over the lists in them. The iteration over measurements keeps the invariant that the stored first entries of the kinds that were done are before the cursor and the others are where the first child of the kind is.
- **C143** (`PcdFlash`): a manifest as the list of its elements with formats; the specification says which element a RoT, port, power controller or component has. Iterations by induction over the components that the elements behind the cursor contain. Safety by cases over formats and lengths with explicit out-of-bounds results and a model of the buffer for the allowed types.
- **C144** (`RiotAes`): the specification is FIPS 197 with the S-box defined by inversion in GF(2^8). Words of the code are related to columns byte by byte; the tables are checked for all 256 indices; rounds and the key schedule by induction, counter mode by induction over blocks. The big-endian branch (`HOST_IS_LITTLE_ENDIAN` not set) and CBC (compiled out) are not modelled.
- **C145** (`HostIrq`): a host is any function from the history of its operations to a status. Each loop by induction over its retries; the order and limits as the form of the whole history. `HostProc` (C70) has the same handler with the dual-flash host, whose bypass does not fail; here the host is arbitrary.
- **C146** (`RiotB64`): the specification encodes 24 bits as four characters of the table of RFC 4648. Encoding by induction over groups of three bytes; characters and the arithmetic of a group checked for all values. Safety of decoding from the number of leading characters and the padding that the size is computed from.
- **C147** (`RamFlash`): the specification is a function from addresses to bytes, run over a list of requests; the model copies into and out of a list, with an outcome for leaving it. Refinement by induction over the history.
- **C148** (`MeasObs`): on the PCR store of `Pcr`, with a failure of the hash engine chosen for each update. The specification gives the bytes that are measured and looks a measurement up by its type. One lemma says what an update does to all measurements; host histories by induction.
- **C149** (`ErrorState`): handlers as trees, histories as lists of calls; the specification folds over the history which channels are in the error state. Trees are flattened by mutual induction. The race as a schedule of two tasks with atomic steps.
- **C150** (`Rfc6979`): the generator over the HMAC model of C55, every engine call of which can fail; the specification is the text of RFC 6979, 2.3 and 3.2. The context holds the K and V of the RFC (invariant), the loop over output blocks is related to that of the RFC by induction, the bit shift for P-521 to `bits2int` with the theorem on shifts of C03.
- **C151** (`KeyGen`): engines as functions of the number of the call, with a list of live key contexts; the specification says when a pair is consistent. Proved by case analysis over all calls, with the theorem on `buffer_compare` of C06.
- **C152** (`RiotSha1`): the 80 unrolled operations as one function of the number of the operation; the specification is SHA-1 of FIPS 180-4 with constants computed from square roots. Proved by an invariant on the rotating registers and the 16-word schedule, then an invariant on the context as in C127.
- **C153** (`HostSingle`): over the settings model of C26; the specification is a record of current device, next device and events. Each call is related to the record through the getters; histories by induction.
- **C154** (`SigVerEcc`): the engine answers by call number and holds numbered keys; the specification folds calls and results into the key in effect. One invariant links the two, by induction over the history.
- **C155** (`EphemeralKeys`): the manager over a key cache given by its contract, a bounded queue; events carry the answers of generator, cache and timer. Conservation of keys by induction over the history, refill by induction over the executions.
- **C156** (`UpdateReset`): one event of the two handlers on the status word, the reset flag and the authorization; the specification is a conjunction of four facts. Bit lemmas show that the packed error code never changes the first byte.
- **C157** (`MsgRoute`): over the message descriptors of C53; the specification parses byte strings. Handlers are arbitrary functions on descriptors; the response theorem assumes that they stay within the room they were given.
- **C158** (`PeriodicTask`): entries as answers of handler and clock; the specification is the relation "due first, first in the list". Loop invariant over the entries seen so far, uniqueness of the next entry.

## Coverage

### Modelled functions

The functions behind each property. The exact lines, and what is simplified, stand at each definition of the module
under `lean/Verif/`. A function that is not named here and not cited in a module is not modelled.

| Property | Modules | Code |
|---|---|---|
| C01 | `CommonMath` | core/common/common_math.c: common_math_increment_byte_array, common_math_decrement_byte_array |
| C02 | `CommonMath` | core/common/common_math.c: common_math_compare_array |
| C03 | `CommonMath` | core/common/common_math.c: common_math_left_shift_array, common_math_right_shift_array |
| C04 | `CommonMath` | core/common/common_math.c: common_math_set_bit_in_array, common_math_clear_bit_in_array, common_math_is_bit_set_in_array, common_math_set_next_bit_in_array |
| C05 | `BufferUtil` | core/common/buffer_util.c: buffer_copy |
| C06 | `BufferUtil` | core/common/buffer_util.c: buffer_compare |
| C07 | `BufferUtil` | core/common/buffer_util.c: buffer_reverse, buffer_reverse_copy |
| C08 | `Asn1` | core/asn1/asn1_util.c: asn1_encode_integer, asn1_decode_integer |
| C09 | `Asn1` | core/asn1/asn1_util.c: asn1_parse_der_header, asn1_get_item, asn1_decode_integer, asn1_decode_base128_oid |
| C10 | `EccDer` | core/asn1/ecc_der_util.c: ecc_der_encode_ecdsa_signature, ecc_der_decode_ecdsa_signature |
| C11 | `EccDer` | core/asn1/ecc_der_util.c: ecc_der_encode_public_key, ecc_der_decode_public_key, ecc_der_encode_private_key, ecc_der_decode_private_key |
| C12 | `EccDer` | core/asn1/ecc_der_util.c: ecc_der_get_next_tag, ecc_der_decode_private_key, ecc_der_decode_public_key, ecc_der_decode_ecdsa_signature |
| C13 | `Base64` | core/asn1/base64_core.c: base64_core_encode |
| C14 | `AesKeyWrap` | core/crypto/aes_key_wrap.c: aes_key_wrap_wrap, aes_key_wrap_unwrap; core/crypto/aes_key_wrap_with_padding.c |
| C15 | `AesKeyWrap` | core/crypto/aes_key_wrap.c: aes_key_wrap_unwrap; core/crypto/aes_key_wrap_with_padding.c: aes_key_wrap_with_padding_unwrap |
| C16 | `Kdf` | core/crypto/kdf.c: kdf_nist800_108_counter_mode, kdf_hkdf_expand |
| C17 | `Checksum` | core/crypto/checksum.c: checksum_update_smbus_crc8, checksum_init_smbus_crc8, checksum_crc8 |
| C18 | `Mctp` | core/mctp/mctp_base_protocol.c: mctp_base_protocol_construct, mctp_base_protocol_interpret |
| C19 | `Mctp` | core/mctp/mctp_interface.c: mctp_interface_generate_packets_from_payload, mctp_interface_process_packet |
| C20 | `Mctp` | core/mctp/mctp_interface.c: mctp_interface_process_packet |
| C21 | `Mctp` | core/mctp/mctp_interface.c: mctp_interface_send_request_message, mctp_interface_handle_response_message, mctp_interface_is_expected_response (process_packet) |
| C22 | `LoggingMemory` | core/logging/logging_memory.c: logging_memory_create_entry, logging_memory_read_contents, logging_memory_get_size, logging_memory_clear |
| C23 | `LoggingMemory` | core/logging/logging_memory.c: logging_memory_init_append_existing, logging_memory_find_last_entry |
| C24 | `StateManager` | core/state_manager/state_manager.c: state_manager_init_state (entry voting) |
| C25 | `StateManager` | core/state_manager/state_manager.c: state_manager_init_state, state_manager_store_non_volatile_state |
| C26 | `HostState` | core/host_fw/host_state_manager.c; core/system/system_state_manager.c |
| C27 | `Flash` | core/flash/flash_util.c: flash_copy_region_and_verify, flash_program_data, flash_erase_region |
| C28 | `Flash` | core/flash/flash_util.c: flash_check_copy_region |
| C29 | `FlashStore` | core/flash/flash_store_contiguous_blocks.c |
| C30 | `Flash` | core/flash/flash_updater.c |
| C31 | `Heap` | core/memory_mgmt/heap_with_defrag.c |
| C32 | `KeyCache` | core/keystore/key_cache_flash.c |
| C33 | `KeyCache` | core/keystore/key_cache_flash.c: key_cache_flash_arrange_key_info_array, init |
| C34 | `Observable` | core/common/observable.c |
| C35 | `Pcr` | core/attestation/pcr.c: pcr_update_digest_common, pcr_const_update_digest, pcr_invalidate_measurement |
| C36 | `Pcr` | core/attestation/pcr.c: pcr_compute |
| C37 | `Pcr` | core/attestation/pcr.c: pcr_get_measurement_data, pcr_hash_measurement_data |
| C38 | `Pcr` | core/attestation/pcr.c: pcr_get_tcg_log; core/attestation/pcr_store.c: pcr_store_get_tcg_log |
| C39 | `Pcr` | core/attestation/pcr_store.c: pcr_store_get_attestation_log, pcr_store_get_attestation_log_size |
| C40 | `Pcr` | core/attestation/pcr.c: pcr_update_buffer_common |
| C41 | `ManifestManager` | core/manifest/manifest_manager_flash.c |
| C42 | `ManifestManager` | core/manifest/manifest_manager_flash.c: manifest_manager_flash_verify_pending_manifest, manifest_manager_flash_activate_pending_manifest |
| C43 | `ManifestManager` | core/manifest/manifest_manager_flash.c: manifest_manager_flash_get_manifest_region |
| C44 | `ManifestVerification` | core/manifest/manifest_verification.c |
| C45 | `ManifestFlash` | core/manifest/manifest_flash.c: manifest_flash_verify_v2 |
| C46 | `ManifestFlash` | core/manifest/manifest_flash.c: manifest_flash_read_element_data_common |
| C47 | `AuthToken` | core/common/auth_token.c; core/common/authorization_challenge.c |
| C48 | `AuthToken` | core/common/authorized_data_with_aad.c; core/common/auth_token.c: auth_token_verify_data |
| C49 | `SessionManager` | core/cmd_interface/session_manager.c: session_manager_encrypt_message, session_manager_add_session |
| C50 | `SessionManager` | core/cmd_interface/session_manager.c |
| C51 | `Counters` | core/cmd_interface/counter_manager_registers.c |
| C52 | `CmdChannel` | core/cmd_interface/cmd_channel.c: cmd_channel_receive_and_process |
| C53 | `CmdMsg` | core/cmd_interface/cmd_interface.c: cmd_interface_msg_* |
| C54 | `ConfigReset` | core/cmd_interface/config_reset.c: config_reset_restore_defaults |
| C55 | `Hmac` | core/crypto/hash.c: hash_hmac_init, hash_hmac_update, hash_hmac_finish; core/crypto/hkdf.c: hkdf_extract |
| C56 | `Mctp` | core/mctp/mctp_interface.c: mctp_interface_handle_request_message, mctp_interface_generate_packets_from_payload; core/cmd_interface/device_manager.c: device_manager_get_max_transmission_unit |
| C57 | `Pcr` | core/attestation/pcr_store.c: pcr_store_get_measurement_type, pcr_store_get_num_total_measurements |
| C58 | `SessionManager` | core/cmd_interface/session_manager.c: session_manager_encrypt_message, session_manager_decrypt_message |
| C59 | `SessionManager` | core/cmd_interface/session_manager.c: session_manager_setup_paired_session |
| C60 | `CmdChannel` | core/cmd_interface/cmd_channel.c: cmd_channel_send_packets, cmd_channel_send_message |
| C61 | `FwUpdate` | core/firmware/firmware_update.c: firmware_update_run_update, firmware_update_run_update_no_revocation, firmware_update_run_revocation, firmware_update_write_image; core/firmware/firmware_update_handler.c: firmware_update_handler_prepare |
| C62 | `FwUpdate` | core/firmware/firmware_update.c: firmware_update_load_and_verify_image, firmware_update_apply_update, firmware_update_run_update |
| C63 | `FwUpdate` | core/firmware/firmware_update.c: firmware_update_set_image_digest, firmware_update_prepare_staging, firmware_update_write_to_staging, firmware_update_run_update; core/flash/flash_updater.c: flash_updater_prepare_for_update |
| C64 | `FwUpdate` | core/firmware/firmware_update.c: firmware_update_process_manifest_revocation; core/firmware/firmware_image.h: firmware_image.get_key_manifest |
| C65 | `HostFw` | core/host_fw/host_fw_util.c: host_fw_full_flash_verification_multiple_fw, host_fw_verify_offset_images_multiple_fw, host_fw_verify_images_on_flash, host_fw_find_next_flash_region; core/flash/flash_util.c: flash_value_check, flash_verify_noncontiguous_contents_at_offset |
| C66 | `HostFw` | core/host_fw/host_fw_util.c: host_fw_config_spi_filter_read_write_regions, host_fw_config_spi_filter_read_write_regions_multiple_fw |
| C67 | `HostFw` | core/host_fw/host_fw_util.c: host_fw_determine_offset_version |
| C68 | `HostFw` | core/host_fw/host_fw_util.c: host_fw_are_images_different, host_fw_are_regions_different, host_fw_are_read_write_regions_different |
| C69 | `HostFw` | core/host_fw/host_fw_util.c: host_fw_migrate_read_write_data, host_fw_migrate_read_write_data_multiple_fw, host_fw_restore_flash_device, host_fw_restore_read_write_data |
| C70 | `HostProc` | core/host_fw/host_processor_filtered.c; core/host_fw/host_processor_dual.c; core/host_fw/host_processor_dual_full_bypass.c; core/host_fw/host_flash_manager_dual.c; core/host_fw/host_irq_handler.c: host_irq_handler_power_on; core/host_fw/host_state_manager.c |
| C71 | `HostProc` | core/host_fw/host_processor_dual.c: host_processor_dual_flash_rollback; core/host_fw/host_flash_manager_dual.c: host_flash_manager_dual_swap_flash_devices |
| C72 | `HostProc` | core/host_fw/host_processor.h: run_time_verification; core/host_fw/host_processor_dual.c: host_processor_dual_run_time_verification, host_processor_dual_prepare_verification, host_processor_dual_finalize_verification; core/host_fw/host_processor_filtered.c: host_processor_filtered_update_verification, host_processor_filtered_get_next_reset_verification_actions |
| C73 | `HostFlash` | core/host_fw/host_flash_manager.c: host_flash_manager_validate_flash, host_flash_manager_get_image_entry, host_flash_manager_get_flash_read_write_regions; core/host_fw/host_fw_util.c; core/host_fw/host_flash_manager_dual.c: host_flash_manager_dual_validate_read_only_flash |
| C74 | `HostFlash` | core/host_fw/host_flash_manager.c: host_flash_manager_validate_flash, host_flash_manager_validate_pfm, host_flash_manager_get_flash_read_write_regions, host_flash_manager_free_read_write_regions, host_flash_manager_free_images |
| C75 | `HostFlash` | core/host_fw/host_flash_manager.c: host_flash_manager_validate_pfm; core/host_fw/host_fw_util.c: host_fw_are_images_different |
| C76 | `HostFlash` | core/host_fw/host_flash_manager.c: host_flash_manager_config_spi_filter_flash_type; core/flash/spi_flash.c: spi_flash_is_address_mode_fixed, spi_flash_address_mode_requires_write_enable, spi_flash_is_4byte_address_mode_on_reset, spi_flash_enable_4byte_address_mode |
| C77 | `HostFlash` | core/host_fw/host_flash_manager.c: host_flash_manager_set_flash_for_rot_access, host_flash_manager_configure_flash_for_rot_access, host_flash_manager_set_flash_for_host_access, host_flash_manager_host_has_flash_access; core/host_fw/host_flash_initialization.c: host_flash_initialization_initialize_flash; core/flash/spi_flash.c: spi_flash_detect_4byte_address_mode |
| C78 | `SpiFlash` | core/flash/spi_flash.c: spi_flash_read, spi_flash_write, spi_flash_sector_erase, spi_flash_block_erase, spi_flash_chip_erase, spi_flash_wait_for_write_completion |
| C79 | `SpiFlash` | core/flash/spi_flash.c: spi_flash_write, spi_flash_erase_region, spi_flash_chip_erase, spi_flash_reset_device, spi_flash_enable_4byte_address_mode |
| C80 | `SpiFlash` | core/flash/spi_flash.c: spi_flash_discover_device_properties, spi_flash_restore_device, spi_flash_save_device_info, spi_flash_enable_4byte_address_mode, spi_flash_detect_4byte_address_mode, spi_flash_reset_device, spi_flash_is_4byte_address_mode_on_reset |
| C81 | `Recovery` | core/recovery/recovery_image.c: recovery_image_verify, recovery_image_apply_to_flash, recovery_image_get_hash; core/recovery/recovery_image_header.c: recovery_image_header_init; core/recovery/recovery_image_section_header.c: recovery_image_section_header_init |
| C82 | `Recovery` | core/recovery/recovery_image.c: recovery_image_verify, recovery_image_get_version; core/recovery/recovery_image_header.c: recovery_image_header_init; core/common/image_header.c: image_header_init |
| C83 | `Recovery` | core/recovery/recovery_image_manager.c: recovery_image_manager_get_active_recovery_image, recovery_image_manager_clear_recovery_image_region, recovery_image_manager_write_recovery_image_data, recovery_image_manager_activate_recovery_image, recovery_image_manager_erase_all_recovery_regions, recovery_image_manager_init_two_region |
| C84 | `Recovery` | core/recovery/recovery_image_manager.c: recovery_image_manager_get_measured_data, recovery_image_manager_hash_measured_data, recovery_image_manager_erase_all_recovery_regions; core/recovery/recovery_image_observer_pcr.c: recovery_image_observer_pcr_on_recovery_image_activated, recovery_image_observer_pcr_on_recovery_image_deactivated |
| C85 | `Protocol` | core/cmd_interface/cmd_interface_system.c: cmd_interface_system_process_request; core/cmd_interface/cerberus_protocol_required_commands.c; core/cmd_interface/cerberus_protocol_optional_commands.c; core/cmd_interface/cerberus_protocol_master_commands.c; core/cmd_interface/cerberus_protocol_diagnostic_commands.c; core/cmd_interface/cerberus_protocol_debug_commands.c; core/mctp/cmd_interface_protocol_mctp_msft_vdm.c |
| C86 | `Protocol` | core/cmd_interface/cmd_interface_system.c: cmd_interface_system_process_request; core/cmd_interface/cerberus_protocol_required_commands.c; core/cmd_interface/cerberus_protocol_optional_commands.c; core/cmd_interface/cerberus_protocol_master_commands.c; core/cmd_interface/cerberus_protocol_diagnostic_commands.c; core/cmd_interface/cerberus_protocol_debug_commands.c; core/mctp/cmd_interface_protocol_mctp_msft_vdm.c |
| C87 | `Protocol` | core/cmd_interface/cmd_interface_system.c: cmd_interface_system_process_request; core/cmd_interface/cerberus_protocol_required_commands.c; core/cmd_interface/cerberus_protocol_optional_commands.c; core/cmd_interface/cerberus_protocol_master_commands.c; core/cmd_interface/cerberus_protocol_diagnostic_commands.c; core/cmd_interface/cerberus_protocol_debug_commands.c; core/mctp/cmd_interface_protocol_mctp_msft_vdm.c |
| C88 | `Protocol` | core/cmd_interface/cerberus_protocol_required_commands.c: cerberus_protocol_get_certificate; core/mctp/cmd_interface_protocol_mctp_msft_vdm.c |
| C89 | `Protocol` | core/cmd_interface/cerberus_protocol_required_commands.c: cerberus_protocol_get_device_capabilities; core/cmd_interface/device_manager.c: device_manager_get_max_message_len_by_eid, device_manager_update_device_capabilities_request |
| C90 | `Protocol` | core/cmd_interface/cmd_interface_system.c: cmd_interface_system_process_request; core/cmd_interface/cmd_interface.c: cmd_interface_prepare_response; core/cmd_interface/session_manager.c: session_manager_encrypt_message, session_manager_decrypt_message |
| C91 | `LoggingFlash` | core/logging/logging_flash.c: logging_flash_create_entry, logging_flash_flush, logging_flash_clear, logging_flash_get_size, logging_flash_read_contents, logging_flash_init_state |
| C92 | `Protocol` | core/cmd_interface/cerberus_protocol_required_commands.c; core/cmd_interface/cerberus_protocol_optional_commands.c; core/cmd_interface/cerberus_protocol_master_commands.c; core/cmd_interface/cmd_interface_system.c: cmd_interface_system_process_request; core/cmd_interface/cmd_interface.c: cmd_interface_prepare_response |
| C93 | `OcpRecovery` | core/recovery/ocp_recovery_device.c: ocp_recovery_device_init_state, ocp_recovery_device_write_request, ocp_recovery_device_read_request, ocp_recovery_device_write_indirect_data, ocp_recovery_device_read_indirect_data |
| C94 | `OcpRecovery` | core/recovery/ocp_recovery_device.c: ocp_recovery_device_write_reset, ocp_recovery_device_write_recovery_ctrl, ocp_recovery_device_write_request |
| C95 | `OcpRecovery` | core/recovery/ocp_recovery_device.c: ocp_recovery_device_start_new_command, ocp_recovery_device_write_request, ocp_recovery_device_read_request, ocp_recovery_device_checksum_failure, ocp_recovery_device_write_overflow, ocp_recovery_device_write_incomplete |
| C96 | `OcpRecovery` | core/recovery/ocp_recovery_smbus.c: ocp_recovery_smbus_start, ocp_recovery_smbus_stop, ocp_recovery_smbus_receive_byte, ocp_recovery_smbus_transmit_bytes |
| C97 | `Unlock` | core/system/secure_device_unlock_policy.c: secure_device_unlock_policy_apply_unlock_policy, secure_device_unlock_policy_clear_unlock_policy; core/system/device_unlock_token.c: device_unlock_token_authenicate, device_unlock_token_get_unlock_policy; core/common/auth_token.c: auth_token_verify_data |
| C98 | `Unlock` | core/system/device_unlock_token.c: device_unlock_token_generate, device_unlock_token_get_unlock_counter, device_unlock_token_get_nonce; core/system/secure_device_unlock_policy.c: secure_device_unlock_policy_get_unlock_token |
| C99 | `Unlock` | core/rma/rma_unlock_token.c: rma_unlock_token_authenticate, rma_unlock_token_authenticate_no_signature; core/rma/secure_device_unlock_rma.c: secure_device_unlock_rma_apply_unlock_policy; core/rma/authorized_execution_rma.c: authorized_execution_rma_execute |
| C100 | `Pcisig` | core/pcisig/tdisp/tdisp_commands.c; core/pcisig/tdisp/cmd_interface_tdisp_responder.c: cmd_interface_tdisp_responder_process_request |
| C101 | `Pcisig` | core/pcisig/tdisp/tdisp_commands.c: tdisp_lock_interface_request, tdisp_start_interface_request; core/pcisig/tdisp/tdisp_tdi_context_manager.c |
| C102 | `Pcisig` | core/pcisig/tdisp/firmware_update_observer_tdisp.c: firmware_update_observer_tdisp_on_prepare_update |
| C103 | `Pcisig` | core/pcisig/ide/ide_commands.c; core/pcisig/ide/cmd_interface_ide_responder.c: cmd_interface_ide_responder_process_request |
| C104 | `Pcisig` | core/pcisig/doe/doe_interface.c; core/pcisig/doe/doe_cmd_channel.c: doe_cmd_channel_receive_and_process |
| C105 | `Spdm` | core/spdm/spdm_transcript_manager.c: spdm_transcript_manager_update, spdm_transcript_manager_get_hash, spdm_transcript_manager_reset |
| C106 | `Spdm` | core/spdm/spdm_secure_session_manager.c: spdm_secure_session_manager_decode_secure_message, spdm_secure_session_manager_encode_secure_message, spdm_secure_session_manager_create_session, spdm_secure_session_manager_release_session |
| C107 | `Spdm` | core/spdm/cmd_interface_spdm_responder.c: cmd_interface_spdm_process_request; core/spdm/spdm_commands.c: spdm_key_exchange, spdm_finish, spdm_end_session, spdm_vendor_defined_request, spdm_get_measurements, spdm_get_version; core/spdm/spdm_secure_session_manager.c |
| C108 | `FwImage` | core/firmware/firmware_component.c: firmware_component_init, firmware_component_load_and_verify_with_header, firmware_component_load_to_memory_and_verify_with_header; core/firmware/app_image.c: app_image_load_and_verify_with_header; core/crypto/signature_verification.c: signature_verification_verify_hash_and_finish_save_digest |
| C109 | `FwImage` | core/firmware/firmware_component.c: firmware_component_verification, firmware_component_load_and_verify; core/flash/flash_util.c: flash_contents_verification |
| C110 | `FwImage` | core/firmware/firmware_component.c; core/firmware/app_image.c; core/firmware/firmware_header.c; core/common/image_header.c |
| C111 | `FwImage` | core/firmware/firmware_component.c: firmware_component_copy, firmware_component_compare_and_copy; core/flash/flash_util.c |
| C112 | `Riot` | core/riot/riot_key_manager.c: riot_key_manager_authenticate_stored_certificates, riot_key_manager_store_certificate, riot_key_manager_erase_all_certificates, riot_key_manager_get_riot_keys, riot_key_manager_get_root_ca; core/cmd_interface/cmd_background_handler.c: cmd_background_handler_execute |
| C113 | `Riot` | core/riot/riot_key_manager.c: riot_key_manager_authenticate_stored_certificates, riot_key_manager_release |
| C114 | `OcpRecovery` | core/recovery/ocp_recovery_device.c: ocp_recovery_device_read_prot_cap, ocp_recovery_device_write_reset, ocp_recovery_device_write_recovery_ctrl, ocp_recovery_device_read_request |
| C115 | `Attest` | core/attestation/attestation_responder.c: attestation_responder_get_digests, attestation_responder_get_certificate |
| C116 | `Attest` | core/attestation/attestation_responder.c: attestation_responder_challenge_response; core/crypto/ecdsa.c: ecdsa_sign_hash_and_finish |
| C117 | `Attest` | core/attestation/attestation_responder.c: attestation_responder_get_digests, attestation_responder_get_certificate, attestation_responder_challenge_response; core/riot/riot_key_manager.c: riot_key_manager_get_riot_keys |
| C118 | `Attest` | core/attestation/aux_attestation.c: aux_attestation_unseal, aux_attestation_generate_ecdh_seed, aux_attestation_decrypt |
| C119 | `Intrusion` | core/intrusion/intrusion_manager.c: intrusion_manager_update_measurement, intrusion_manager_handle_intrusion, intrusion_manager_reset_intrusion, intrusion_manager_update_intrusion_state; core/intrusion/intrusion_manager_async.c: intrusion_manager_async_on_intrusion, intrusion_manager_async_on_no_intrusion, intrusion_manager_async_on_error |
| C120 | `Tpm` | core/tpm/tpm.c: tpm_init_header, tpm_read_header, tpm_on_soft_reset, tpm_schedule_clear, tpm_increment_counter, tpm_set_storage, tpm_get_storage, tpm_init_state |
| C121 | `EventTask` | core/system/event_task.c: event_task_submit_event, event_task_find_handler; projects/freertos/event_task_freertos.c: event_task_freertos_get_event_context, event_task_freertos_notify, event_task_freertos_process_notification, event_task_freertos_start |
| C122 | `Impactful` | core/firmware/impactful_update.c: impactful_update_is_update_not_impactful, impactful_update_is_update_allowed, impactful_update_authorize_update, impactful_update_reset_authorization, impactful_update_expired_authorization; projects/freertos/platform.c: platform_timer_notification, platform_timer_arm_one_shot, platform_timer_disarm |
| C123 | `Requester` | core/attestation/attestation_requester.c: attestation_requester_verify_digest_in_allowable_list, attestation_requester_compare_data, attestation_requester_verify_data_in_allowable_list, attestation_requester_verify_digest_measurement_block, attestation_requester_verify_data_measurement_block |
| C124 | `Requester` | core/attestation/attestation_requester.c: attestation_requester_verify_and_load_root_cert, attestation_requester_verify_and_load_certificate, attestation_requester_update_alias_key, attestation_requester_verify_and_load_leaf_key_spdm; core/cmd_interface/device_manager.c: device_manager_update_cert_chain_digest, device_manager_update_alias_key |
| C125 | `Requester` | core/attestation/attestation_requester.c: attestation_requester_attest_device, attestation_requester_attest_device_by_component_id, attestation_requester_attest_device_spdm, attestation_requester_send_and_receive_spdm_get_measurements, attestation_requester_spdm_process_get_measurements_response, attestation_requester_verify_signature, attestation_requester_get_and_verify_cfm_contents |
| C126 | `Requester` | core/attestation/attestation_requester.c: attestation_requester_attest_device, attestation_requester_attest_device_by_component_id; core/cmd_interface/device_manager.c: device_manager_update_device_state_by_eid, device_manager_update_attestation_summary_event_counters_by_eid |
| C127 | `RiotSha` | core/riot/reference/RiotSha256.c: RIOT_SHA256_Init, SHA256_Transform, RIOT_SHA256_Update, RIOT_SHA256_Final, RIOT_SHA256_Block_ctx, RIOT_SHA256_Block |
| C128 | `RiotSha` | core/riot/reference/RiotHmac.c: RIOT_HMAC_SHA256_Init, RIOT_HMAC_SHA256_Update, RIOT_HMAC_SHA256_Final; core/riot/reference/RiotKdf.c: RIOT_KDF_FIXED, RIOT_KDF_SHA256 |
| C129 | `RiotDer` | core/riot/reference/RiotDerEnc.c: DERInitContext, DERAddOID, DERAddEncodedOID, DERAddUTF8String, DERAddTime, DERAddIntegerFromArray, DERAddTaggedIntegerFromArray, DERAddTaggedInteger, DERAddInteger, DERAddShortExplicitInteger, DERAddBoolean, DERAddNamedBitString, DERAddBitString, DERAddOctetString, DERAddAuthKeyBitString, DERStartSequenceOrSet, DERStartConstructed, DERStartExplicit, DERStartEnvelopingOctetString, DERStartEnvelopingBitString, DERPopNesting, DERTbsToCert, DERAddNull, DERAddDER |
| C130 | `RiotDer` | core/riot/reference/RiotDerDec.c: DERDECReadLength, DERDECVerifyCert, DERDECGetSubjectName, DERDECGetPubKey, DERDECGetPrivKey, DERDECGetPubKeyFromPrivKey |
| C131 | `CertBuild` | core/asn1/x509_cert_build.c: x509_cert_build_create_csr, x509_cert_build_create_self_signed_certificate, x509_cert_build_create_ca_signed_certificate, x509_cert_build_sign_certificate, x509_cert_build_build_certificate_tbs_data, x509_cert_build_build_csr_tbs_data, x509_cert_build_add_custom_extension |
| C132 | `ExtBuild` | core/asn1/x509_extension_builder_eku.c: x509_extension_builder_eku_create_extension, x509_extension_builder_eku_build_dynamic, x509_extension_builder_eku_get_ext_buffer_length; core/asn1/dice/x509_extension_builder_dice_ueid.c: x509_extension_builder_dice_ueid_create_extension, x509_extension_builder_dice_ueid_build_dynamic, x509_extension_builder_dice_ueid_build_static; core/asn1/dice/x509_extension_builder_dice_tcbinfo.c: x509_extension_builder_dice_tcbinfo_create_extension, x509_extension_builder_dice_tcbinfo_build_dynamic, x509_extension_builder_dice_tcbinfo_get_ext_buffer_length; core/asn1/dme/x509_extension_builder_dme.c: x509_extension_builder_dme_create_extension, x509_extension_builder_dme_build_dynamic |
| C133 | `RiotCore` | core/riot/riot_core_common.c: riot_core_common_generate_device_id, riot_core_common_create_device_id_certificate, riot_core_common_generate_alias_key, riot_core_common_get_device_id_cert, riot_core_common_get_alias_key, riot_core_common_get_alias_key_cert, riot_core_common_release, riot_core_common_init_state; core/riot/riot_core.c: RIOT_CORE_SERIAL_NUM_KDF_DATA |
| C134 | `FwPfm` | core/firmware/firmware_pfm_verify.c: firmware_pfm_verify_run_verification, firmware_pfm_verify_init_state, firmware_pfm_verify_get_fw_version_measured_data, firmware_pfm_verify_hash_fw_version_measured_data, firmware_pfm_verify_get_pfm_digest_measured_data, firmware_pfm_verify_get_pfm_id_measured_data, firmware_pfm_verify_get_pfm_platform_id_measured_data; core/manifest/manifest_pcr.c: manifest_pcr_measure_manifest; core/manifest/manifest_manager.c: manifest_manager_get_manifest_digest_measured_data, manifest_manager_get_id_measured_data, manifest_manager_get_platform_id_measured_data |
| C135 | `SpdmMeas` | core/spdm/spdm_measurements.c: spdm_measurements_get_measurement_count, spdm_measurements_get_measurement_block, spdm_measurements_get_measurement_block_length, spdm_measurements_get_all_measurement_blocks, spdm_measurements_get_all_measurement_blocks_length, spdm_measurements_get_measurement_summary_hash; core/spdm/spdm_measurements_discovery.c: spdm_measurements_discovery_get_measurement_block, spdm_measurements_discovery_get_measurement_block_length, spdm_measurements_discovery_get_all_measurement_blocks, spdm_measurements_discovery_get_all_measurement_blocks_length, spdm_measurements_discovery_get_measurement_summary_hash; core/spdm/spdm_discovery.c: spdm_discovery_device_id_init |
| C136 | `SpdmCert` | core/spdm/spdm_certificate_chain_dice.c: spdm_certificate_chain_dice_get_digest, spdm_certificate_chain_dice_get_certificate_chain; core/spdm/spdm_commands.c: spdm_get_digests, spdm_get_certificate, spdm_reset_transcript_via_request_code |
| C137 | `Mmio` | core/mmio/mmio_register_block.c: mmio_register_block_read_bits, mmio_register_block_write_bits, mmio_register_block_read_bit, mmio_register_block_write_bit, mmio_register_block_set_bit, mmio_register_block_clear_bit, mmio_register_block_read_bits_by_addr, mmio_register_block_write_bits_by_addr; core/mmio/mmio_util.c: mmio_register_block_read32, mmio_register_block_write32 |
| C138 | `SpdmNeg` | core/spdm/spdm_commands.c: spdm_negotiate_algorithms, spdm_negotiate_algorithms_construct_response, spdm_prioritize_algorithm, spdm_get_capabilities, spdm_check_request_flag_compatibility; core/spdm/spdm_commands.h: spdm_negotiate_algorithms_actual_extended_algo_size |
| C139 | `DevSched` | core/cmd_interface/device_manager.c: device_manager_get_device_num_of_next_device_to_attest, device_manager_update_device_state, device_manager_get_time_till_next_action, device_manager_get_attestation_status, device_manager_init, device_manager_restart_device_discovery |
| C140 | `Discovery` | core/cmd_interface/device_manager.c: device_manager_add_unidentified_device, device_manager_remove_unidentified_device, device_manager_unidentified_device_timed_out, device_manager_get_eid_of_next_device_to_discover, device_manager_find_unidentified_device, device_manager_is_device_unattestable; core/attestation/attestation_requester.c: attestation_requester_get_mctp_routing_table, attestation_requester_discover_device, attestation_requester_discovery_and_attestation_loop |
| C141 | `MctpCtl` | core/mctp/cmd_interface_mctp_control.c: cmd_interface_mctp_control_process_request; core/mctp/mctp_control_protocol_commands.c: mctp_control_protocol_set_eid, mctp_control_protocol_get_eid, mctp_control_protocol_get_mctp_version_support, mctp_control_protocol_get_message_type_support, mctp_control_protocol_get_vendor_def_msg_support, mctp_control_protocol_process_get_routing_table_entries_response; core/cmd_interface/device_manager.c: device_manager_update_device_eid, device_manager_update_not_attestable_device_entry |
| C142 | `CfmFlash` | core/manifest/cfm/cfm_flash.c: cfm_flash_get_component_device, cfm_flash_buffer_supported_components, cfm_flash_get_component_pmr, cfm_flash_get_component_pmr_digest, cfm_flash_get_root_ca_digest, cfm_flash_get_next_measurement_or_measurement_data, cfm_flash_get_next_manifest; core/manifest/cfm/cfm_format.h; core/manifest/manifest_flash.c: manifest_flash_read_element_data, manifest_flash_get_child_elements_info |
| C143 | `PcdFlash` | core/manifest/pcd/pcd_flash.c: pcd_flash_get_rot_info, pcd_flash_get_port_info, pcd_flash_get_power_controller_info, pcd_flash_buffer_supported_components, pcd_flash_get_next_component; core/manifest/pcd/pcd_format.h; core/manifest/pcd/pcd.h: get_next_component; core/manifest/manifest_flash.c: manifest_flash_read_element_data_multi_type |
| C144 | `RiotAes` | core/riot/reference/RiotAes128.c: RIOT_AES128_Enable, RIOT_AES_CTR_128, RIOT_AES_ECB_128_ENCRYPT, EncryptRounds; core/riot/reference/RiotAesTables.c: sbox, ftable, Rconst; core/riot/reference/RiotCrypt.c: RiotCrypt_SymEncryptDecrypt |
| C145 | `HostIrq` | core/host_fw/host_irq_handler.c: host_irq_handler_power_on, host_irq_handler_force_recovery; core/host_fw/host_irq_handler.h; core/host_fw/host_processor.h: power_on_reset, flash_rollback, apply_recovery_image, bypass_mode |
| C146 | `RiotB64` | core/riot/reference/RiotBase64.c: Base64Encode, Base64Decode, base64char, base64b16, base64b8, base64toValue, Base64DecodedLength |
| C147 | `RamFlash` | core/flash/flash_virtual_ram.c: flash_virtual_ram_init, flash_virtual_ram_read, flash_virtual_ram_write, flash_virtual_ram_block_erase, flash_virtual_ram_chip_erase, flash_virtual_ram_get_device_size |
| C148 | `MeasObs` | core/manifest/manifest_pcr.c: manifest_pcr_init, manifest_pcr_measure_manifest; core/manifest/pfm/pfm_observer_pcr.c: pfm_observer_pcr_on_pfm_activated; core/recovery/recovery_image_observer_pcr.c: recovery_image_observer_pcr_on_recovery_image_activated; core/host_fw/host_processor_observer_pcr.c: host_processor_observer_pcr_update, host_processor_observer_pcr_init_state |
| C149 | `ErrorState` | core/fips/cmd_channel_error_state.c: cmd_channel_error_state_send_packet, cmd_channel_error_state_enter_error_state; core/fips/cmd_channel_error_state_with_exit.c: cmd_channel_error_state_with_exit_exit_error_state; core/fips/error_state_entry_group.c: error_state_entry_group_enter_error_state; core/fips/error_state_exit_group.c: error_state_exit_group_exit_error_state; core/fips/periodic_self_test_handler.c: periodic_self_test_handler_execute |
| C150 | `Rfc6979` | core/crypto/ecdsa.c: ecdsa_deterministic_k_drbg_instantiate, ecdsa_deterministic_k_drbg_generate, ecdsa_deterministic_k_drbg_clear |
| C151 | `KeyGen` | core/crypto/ecdh.c: ecdh_generate_random_key, ecdh_pairwise_consistency_test, ecdh_ecc_hw_generate_random_key, ecdh_ecc_hw_pairwise_consistency_test; core/crypto/ecdsa.c: ecdsa_generate_random_key, ecdsa_pairwise_consistency_test, ecdsa_ecc_hw_generate_random_key, ecdsa_ecc_hw_pairwise_consistency_test |
| C152 | `RiotSha1` | core/riot/reference/RiotSha1.c: SHA1_Transform, RIOT_SHA1_Init, RIOT_SHA1_Update, RIOT_SHA1_Final, RIOT_SHA1_Block |
| C153 | `HostSingle` | core/host_fw/host_processor_single.c: host_processor_single_config_read_only_flash, host_processor_single_get_flash_config, host_processor_single_bypass_mode, host_processor_single_prepare_verification, host_processor_single_finalize_verification, host_processor_single_full_read_write_flash; core/host_fw/host_processor_single_full_bypass.c: host_processor_single_full_bypass_enable_bypass_mode |
| C154 | `SigVerEcc` | core/crypto/signature_verification_ecc.c: signature_verification_ecc_verify_signature, signature_verification_ecc_load_key, signature_verification_ecc_set_verification_key, signature_verification_ecc_is_key_valid, signature_verification_ecc_init_state, signature_verification_ecc_release |
| C155 | `EphemeralKeys` | core/keystore/ephemeral_key_manager.c: ephemeral_key_manager_execute, ephemeral_key_manager_get_next_execution, ephemeral_key_manager_schedule_next_execute, ephemeral_key_manager_get_key, ephemeral_key_manager_init |
| C156 | `UpdateReset` | core/firmware/firmware_update_handler.c: firmware_update_handler_execute, firmware_update_handler_status_change, firmware_update_handler_set_update_status_with_error; core/firmware/impactful_update_handler.c: impactful_update_handler_execute |
| C157 | `MsgRoute` | core/cmd_interface/cmd_interface_multi_handler.c: cmd_interface_multi_handler_process_request, cmd_interface_multi_handler_find_message_type, cmd_interface_multi_handler_is_message_type_supported; core/mctp/cmd_interface_protocol_mctp.c: cmd_interface_protocol_mctp_parse_message, cmd_interface_protocol_mctp_handle_request_result, cmd_interface_protocol_mctp_populate_header |
| C158 | `PeriodicTask` | core/system/periodic_task.c: periodic_task_prepare_handlers, periodic_task_execute_next_handler |

### Files of `/repo/core` without a model

123 of 289 C files are not cited by any module:

* `core/acvp`: acvp_proto.c, acvp_proto_tester_adapter.c, backend_aead.c, backend_ecdh.c, backend_ecdsa.c, backend_hkdf.c, backend_hmac.c, backend_rsa.c, backend_sha.c, backend_sym.c
* `core/asn1`: asn1_oid.c, base64_mbedtls.c, base64_thread_safe.c, x509_extension_builder.c, x509_extension_builder_mbedtls_eku.c, x509_mbedtls.c, x509_thread_safe.c
* `core/asn1/dice`: x509_extension_builder_mbedtls_dice_tcbinfo.c, x509_extension_builder_mbedtls_dice_ueid.c
* `core/asn1/dme`: dme_structure.c, dme_structure_raw_ecc.c, dme_structure_raw_ecc_le.c, x509_extension_builder_mbedtls_dme.c
* `core/asn1/spdm`: spdm_oid.c
* `core/attestation`: attestation_requester_handler.c
* `core/cmd_interface`: cmd_channel_handler.c, cmd_interface_ac_rot.c, cmd_interface_dual_cmd_set.c, cmd_interface_null.c, cmd_interface_protocol_cerberus.c, cmd_interface_protocol_cerberus_secure.c, msg_transport.c, msg_transport_intermediate.c, session_manager_null.c
* `core/common`: authorized_execution.c
* `core/crypto`: aes_cbc_mbedtls.c, aes_ecb_mbedtls.c, aes_gcm_mbedtls.c, aes_xts.c, aes_xts_mbedtls.c, ecc_ecc_hw.c, ecc_mbedtls.c, ecc_thread_safe.c, ephemeral_key_generation_rsa.c, hash_thread_safe.c, rng_dummy.c, rng_mbedtls.c, rng_thread_safe.c, rsa_mbedtls.c, rsa_thread_safe.c, signature_verification_null.c, signature_verification_rsa.c
* `core/crypto/kat`: aes_kat.c, aes_kat_vectors.c, aes_key_wrap_kat.c, aes_key_wrap_kat_vectors.c, ecc_kat_vectors.c, ecdh_kat.c, ecdsa_kat.c, hash_kat.c, hash_kat_vectors.c, hmac_kat_vectors.c, kdf_kat.c, kdf_kat_vectors.c, rsa_kat_vectors.c, signature_verification_kat.c, signature_verification_kat_vectors.c
* `core/firmware`: app_context_null.c, authorized_execution_allow_impactful.c, authorized_execution_prepare_firmware_update.c, firmware_update_handler_no_revocation.c, firmware_update_handler_revoke_after_reset.c, firmware_update_observer_impactful.c, restore_active_handler.c
* `core/flash`: flash_common.c
* `core/host_fw`: host_cmd_handler.c, host_flash_manager_single_with_backup.c, host_irq_handler_auth_check.c, host_irq_handler_mask_irqs.c, host_processor.c, host_state_observer_dirty_reset.c
* `core/intrusion`: authorized_execution_reset_intrusion.c
* `core/keystore`: keystore_null.c
* `core/logging`: crash_dump_logging.c, debug_log.c, log_flush_handler.c
* `core/manifest`: manifest_cmd_handler.c, manifest_manager_null.c
* `core/manifest/cfm`: cfm_manager.c, cfm_manager_flash.c, cfm_observer_pcr.c, manifest_cmd_handler_cfm.c
* `core/manifest/pcd`: manifest_cmd_handler_pcd.c, pcd_manager.c, pcd_manager_flash.c, pcd_observer_pcr.c
* `core/manifest/pfm`: manifest_cmd_handler_pfm.c, pfm_manager.c, pfm_observer_pending_reset.c
* `core/mctp`: cmd_interface_protocol_mctp_vdm_pci.c, msg_transport_mctp_message.c, msg_transport_mctp_vdm_pci.c
* `core/recovery`: cmd_interface_recovery.c, ocp_recovery_device_variable_cms_log.c, recovery_image_cmd_handler.c
* `core/riot/reference`: RiotEcc.c
* `core/rma`: cmd_interface_rma.c
* `core/spdm`: cmd_interface_protocol_spdm_pcisig.c, cmd_interface_protocol_spdm_vdm.c, cmd_interface_spdm.c, impactful_check_spdm.c, spdm_persistent_context_no_secure_session.c, spdm_state.c
* `core/spi_filter`: spi_filter_interface.c, spi_filter_irq_handler_dirty.c
* `core/state_manager`: state_persistence_handler.c
* `core/system`: fatal_error.c, real_time_clock.c, security_manager.c, security_manager_no_unlock.c, security_policy.c, security_policy_enforcing.c, system.c
