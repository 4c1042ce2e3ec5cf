{"id": "C01", "title": "Byte-array counters count", "statement": "Incrementing (decrementing) a multi-byte big-endian counter adds (subtracts) exactly one to the number it represents, whatever its length. At the maximum (minimum) it either wraps, if rollover was allowed, or reports the boundary and leaves the counter at its limit; it never produces any other value.", "quantifier": "every array length >= 1, every content, both rollover modes", "why_tests_cant": "Carry chains of every length and content; a sampled test sees a handful of the 256^n values.", "anchors": ["core/common/common_math.c: common_math_increment_byte_array, common_math_decrement_byte_array"]}
{"id": "C02", "title": "Array comparison is numeric comparison", "statement": "Comparing two byte arrays of possibly different lengths gives 0 exactly when they represent the same big-endian number, a positive result exactly when the first is larger and a negative one when it is smaller; leading zero bytes never matter. The only exception is the empty array, which counts as smaller than every non-empty array, even an all-zero one.", "quantifier": "every pair of byte arrays of every length", "why_tests_cant": "Quantifies over all pairs of arrays of unequal lengths.", "anchors": ["core/common/common_math.c: common_math_compare_array"]}
{"id": "C03", "title": "Array shifts multiply and divide", "statement": "Shifting a byte array left (right) by n bits multiplies (divides) the big-endian number by 2^n, modulo the array width, for every shift amount including those not smaller than the array width.", "quantifier": "every array, every shift count", "why_tests_cant": "All lengths, contents and shift counts including multi-byte shifts.", "anchors": ["core/common/common_math.c: common_math_left_shift_array, common_math_right_shift_array"]}
{"id": "C04", "title": "Bit-array updates touch one bit", "statement": "Setting (clearing) a bit in an array sets (clears) exactly that bit and no other, out-of-range positions are refused without touching the array, and 'set next bit' sets precisely the lowest clear bit or reports that none is left.", "quantifier": "every array and every bit position", "why_tests_cant": "All positions over arrays of any length.", "anchors": ["core/common/common_math.c: common_math_set_bit_in_array, common_math_clear_bit_in_array, common_math_is_bit_set_in_array, common_math_set_next_bit_in_array"]}
{"id": "C05", "title": "Streamed copies reassemble", "statement": "Emitting a sequence of data pieces through the offset/remaining-length copy helper produces exactly the requested window of the concatenation of the pieces: bytes [offset, offset+length) clipped at the end, never more than the caller's buffer.", "quantifier": "every list of pieces, every offset and every buffer length", "why_tests_cant": "All combinations of piece boundaries and windows.", "anchors": ["core/common/buffer_util.c: buffer_copy"]}
{"id": "C06", "title": "Constant-time comparison is equality", "statement": "The buffer comparison reports a match exactly when all bytes are equal, and its sequence of memory accesses depends only on the length, not on the data.", "quantifier": "every pair of buffers of every length", "why_tests_cant": "Equality over all contents and independence of the access trace from secrets are universally quantified.", "anchors": ["core/common/buffer_util.c: buffer_compare"]}
{"id": "C07", "title": "Buffer reversal is an involution", "statement": "Reversing a buffer in place, or while copying, yields the mirror image for every length, and reversing twice restores the original.", "quantifier": "every buffer", "why_tests_cant": "All lengths, odd and even.", "anchors": ["core/common/buffer_util.c: buffer_reverse, buffer_reverse_copy"]}
{"id": "C08", "title": "DER integers round-trip", "statement": "Every unsigned 64-bit integer that is DER-encoded decodes back to the same value, the encoding is the minimal non-negative one, and a buffer that is too small is refused rather than overrun.", "quantifier": "every 64-bit value and every output buffer size", "why_tests_cant": "2^64 values times all buffer sizes.", "anchors": ["core/asn1/asn1_util.c: asn1_encode_integer, asn1_decode_integer"]}
{"id": "C09", "title": "A parsed DER item lies inside its buffer", "statement": "Whenever the DER parser reports an item, header plus content lie completely inside the supplied buffer, and parsing never reads beyond the buffer.", "quantifier": "every byte string and every buffer length", "why_tests_cant": "Quantifies over all adversarial encodings, including length fields that overflow machine arithmetic.", "anchors": ["core/asn1/asn1_util.c: asn1_parse_der_header, asn1_get_item, asn1_decode_integer, asn1_decode_base128_oid"]}
{"id": "C10", "title": "ECDSA signatures round-trip through DER", "statement": "For every key length supported, encoding r and s to DER and decoding gives back the same r and s; the encoding never exceeds the advertised maximum length and never overruns the output buffer.", "quantifier": "every r, s of every supported key length and every output buffer size", "why_tests_cant": "All values with all patterns of leading zeros and high bits.", "anchors": ["core/asn1/ecc_der_util.c: ecc_der_encode_ecdsa_signature, ecc_der_decode_ecdsa_signature"]}
{"id": "C11", "title": "ECC keys round-trip through DER", "statement": "Every P-256/P-384/P-521 public or private key that is encoded to DER decodes to the same key material with the same length.", "quantifier": "every key value of every supported curve, with and without the public part", "why_tests_cant": "All key values.", "anchors": ["core/asn1/ecc_der_util.c: ecc_der_encode_public_key, ecc_der_decode_public_key, ecc_der_encode_private_key, ecc_der_decode_private_key"]}
{"id": "C12", "title": "DER key and signature parsing stays in bounds", "statement": "Decoding an arbitrary byte string as an ECC private key, public key or ECDSA signature never reads outside the supplied buffer and never writes outside the output buffers.", "quantifier": "every byte string and output size", "why_tests_cant": "All adversarial inputs.", "anchors": ["core/asn1/ecc_der_util.c: ecc_der_get_next_tag, ecc_der_decode_private_key, ecc_der_decode_public_key, ecc_der_decode_ecdsa_signature"]}
{"id": "C13", "title": "Base64 output is the RFC 4648 encoding", "statement": "The encoder's output, decoded by the standard base64 alphabet and padding rules, is exactly the input; it is null terminated, uses only the base64 alphabet and fills exactly the advertised length.", "quantifier": "every input byte string", "why_tests_cant": "All inputs of all lengths modulo 3.", "anchors": ["core/asn1/base64_core.c: base64_core_encode"]}
{"id": "C14", "title": "Key wrap round-trips", "statement": "Unwrapping what was wrapped under the same key gives back the exact data and length, for plain RFC 3394 wrapping and for RFC 5649 wrapping with padding.", "quantifier": "every data string, every length accepted by the API, every block cipher permutation", "why_tests_cant": "All lengths and contents and any cipher.", "anchors": ["core/crypto/aes_key_wrap.c: aes_key_wrap_wrap, aes_key_wrap_unwrap", "core/crypto/aes_key_wrap_with_padding.c"]}
{"id": "C15", "title": "Failed unwraps leak nothing", "statement": "Whenever unwrapping does not succeed after decryption started, the whole caller-supplied output buffer is zero; on success only data whose integrity value, length and padding check is returned.", "quantifier": "every input, cipher behaviour and failure point", "why_tests_cant": "Failure at any step for any data.", "anchors": ["core/crypto/aes_key_wrap.c: aes_key_wrap_unwrap", "core/crypto/aes_key_wrap_with_padding.c: aes_key_wrap_with_padding_unwrap"]}
{"id": "C16", "title": "Key derivation follows the standards", "statement": "The counter-mode KDF output equals the first key_len bytes of HMAC(K,1||label||0||ctx||L) || HMAC(K,2||...) ..., and HKDF-expand output equals the RFC 5869 T(1)||T(2)||... prefix, for every requested length.", "quantifier": "every key, label, context, requested length and MAC function", "why_tests_cant": "All output lengths including non-multiples of the digest.", "anchors": ["core/crypto/kdf.c: kdf_nist800_108_counter_mode, kdf_hkdf_expand"]}
{"id": "C17", "title": "The packet error code catches burst errors", "statement": "The CRC-8 computed over address and data equals the remainder of the message polynomial modulo x^8+x^2+x+1, and any change confined to a burst of at most eight consecutive bits changes it.", "quantifier": "every message of every length, every error burst", "why_tests_cant": "All messages and all burst positions.", "anchors": ["core/crypto/checksum.c: checksum_update_smbus_crc8, checksum_init_smbus_crc8, checksum_crc8"]}
{"id": "C18", "title": "MCTP packets round-trip", "statement": "A packet built by the MCTP layer is accepted by the MCTP parser with the same addressing, tag, sequence, SOM/EOM flags and payload, and corrupting its PEC is rejected.", "quantifier": "every header field value and payload that fits", "why_tests_cant": "All field combinations and payload sizes.", "anchors": ["core/mctp/mctp_base_protocol.c: mctp_base_protocol_construct, mctp_base_protocol_interpret"]}
{"id": "C19", "title": "Fragmentation is undone by reassembly", "statement": "A message of any allowed size split into MCTP packets and fed to a receiver is delivered exactly once, byte for byte, at the last packet.", "quantifier": "every message and every packet size", "why_tests_cant": "All sizes and boundary positions.", "anchors": ["core/mctp/mctp_interface.c: mctp_interface_generate_packets_from_payload, mctp_interface_process_packet"]}
{"id": "C20", "title": "Reassembly survives arbitrary packets", "statement": "For any sequence of incoming packets, the message buffer is never overrun, and a request is only ever delivered if it is the in-order concatenation of the payloads of one start packet, middle packets and an end packet from the same sender and tag.", "quantifier": "every finite sequence of arbitrary packets", "why_tests_cant": "Unbounded adversarial histories.", "anchors": ["core/mctp/mctp_interface.c: mctp_interface_process_packet"]}
{"id": "C21", "title": "A late response never faults the requester", "statement": "However the receive path and a timed-out requester interleave, the response handler never uses the requester's released response buffer.", "quantifier": "every interleaving of the request sender and the packet receiver", "why_tests_cant": "A race between two critical sections; schedules cannot be sampled reliably.", "anchors": ["core/mctp/mctp_interface.c: mctp_interface_send_request_message, mctp_interface_handle_response_message, mctp_interface_is_expected_response (process_packet)"]}
{"id": "C22", "title": "The memory log keeps the newest entries in order", "statement": "After any sequence of entries, reading the log returns the most recent min(count, capacity) entries, oldest first, with consecutive ids; reading in arbitrary chunks gives the same bytes as reading it whole.", "quantifier": "every history of creates, clears and reads; every chunking", "why_tests_cant": "Unbounded histories across wrap-around.", "anchors": ["core/logging/logging_memory.c: logging_memory_create_entry, logging_memory_read_contents, logging_memory_get_size, logging_memory_clear"]}
{"id": "C23", "title": "The memory log survives a restart", "statement": "Re-attaching to an existing log buffer after a restart recovers exactly the entries, order and next id the log had before.", "quantifier": "every log history followed by a restart", "why_tests_cant": "All wrap positions.", "anchors": ["core/logging/logging_memory.c: logging_memory_init_append_existing, logging_memory_find_last_entry"]}
{"id": "C24", "title": "Corrupted state copies are outvoted", "statement": "A stored non-volatile state entry is read back correctly if, for each bit, at most one of its three copies is damaged.", "quantifier": "every state value and every damage pattern with at most one bad copy per bit", "why_tests_cant": "2^48 patterns.", "anchors": ["core/state_manager/state_manager.c: state_manager_init_state (entry voting)"]}
{"id": "C25", "title": "Non-volatile state survives power loss", "statement": "If power is lost at any point while the state is being stored, the next boot restores either the previously stored state or the new one, never anything else; with no loss it restores the last state stored.", "quantifier": "every history of stores, every crash point within a store", "why_tests_cant": "Crash points within flash operations for arbitrary history.", "anchors": ["core/state_manager/state_manager.c: state_manager_init_state, state_manager_store_non_volatile_state"]}
{"id": "C26", "title": "Host state settings are independent", "statement": "Saving one host state setting never changes what any other setting reads back (except that marking the inactive flash or the PFM dirty withdraws a run-time validation result), and the setting itself reads back as saved until changed again or restored to default.", "quantifier": "every sequence of setter calls", "why_tests_cant": "All histories and pairs of settings sharing bit fields.", "anchors": ["core/host_fw/host_state_manager.c", "core/system/system_state_manager.c"]}
{"id": "C27", "title": "Region erase and copy touch only the region", "statement": "Copying data between flash regions leaves the destination equal to the source and all bytes outside the erase blocks of the destination unchanged; page-split programming equals one contiguous write.", "quantifier": "every address, length, page size and block size", "why_tests_cant": "All alignments.", "anchors": ["core/flash/flash_util.c: flash_copy_region_and_verify, flash_program_data, flash_erase_region"]}
{"id": "C28", "title": "Overlap check protects the source", "statement": "A copy is refused when the source and destination overlap or share an erase block, so an accepted copy never erases data it has yet to read.", "quantifier": "every pair of address ranges and block size", "why_tests_cant": "All range pairs, including those that touch.", "anchors": ["core/flash/flash_util.c: flash_check_copy_region"]}
{"id": "C29", "title": "Flash block store round-trips", "statement": "Data saved to a block of the flash store is returned by the next load of this block, intact, for fixed and variable lengths, with and without the integrity hash, on devices with and without partial page writes; other blocks are unaffected.", "quantifier": "every data string, block id, page and sector size", "why_tests_cant": "All sizes and alignments.", "anchors": ["core/flash/flash_store_contiguous_blocks.c"]}
{"id": "C30", "title": "Update writes stay inside the update region", "statement": "However an updater is driven, it never programs a byte outside the region it was created for and never accepts more data than it was prepared for.", "quantifier": "every sequence of prepare and write calls", "why_tests_cant": "Unbounded call sequences.", "anchors": ["core/flash/flash_updater.c"]}
{"id": "C31", "title": "Heap allocations never overlap", "statement": "For any sequence of allocations and frees the live blocks are disjoint, lie inside the arena, and are at least as large as requested; a freed block's space can be allocated again.", "quantifier": "every allocation history", "why_tests_cant": "Unbounded histories with coalescing.", "anchors": ["core/memory_mgmt/heap_with_defrag.c"]}
{"id": "C32", "title": "The key cache hands out each key once", "statement": "For any sequence of adds and removes the cache is a FIFO bounded by its capacity, and a key handed to a requestor is never handed out again.", "quantifier": "every history of add and remove requests including flash failures", "why_tests_cant": "Unbounded histories.", "anchors": ["core/keystore/key_cache_flash.c"]}
{"id": "C33", "title": "Unusable key storage is detected", "statement": "If fewer flash sectors than needed are usable after start-up, the key cache reports an error instead of operating.", "quantifier": "every pattern of valid, invalid and corrupted sectors", "why_tests_cant": "All 3^n sector patterns.", "anchors": ["core/keystore/key_cache_flash.c: key_cache_flash_arrange_key_info_array, init"]}
{"id": "C34", "title": "Observers are notified exactly once each", "statement": "After any sequence of registrations and removals every registered observer, and no other, is notified once per event, in registration order.", "quantifier": "every sequence of add and remove calls", "why_tests_cant": "Unbounded histories.", "anchors": ["core/common/observable.c"]}
{"id": "C35", "title": "Constant measurements cannot change", "statement": "Once a measurement was recorded as constant, no later sequence of API calls changes its digest, version or flags.", "quantifier": "every sequence of PCR operations", "why_tests_cant": "Unbounded histories.", "anchors": ["core/attestation/pcr.c: pcr_update_digest_common, pcr_const_update_digest, pcr_invalidate_measurement"]}
{"id": "C36", "title": "PCR values are the extend chain", "statement": "The value reported for a PCR is the hash-extend chain over the current measurement digests starting from zero; the per-measurement intermediate values are the prefixes of this chain.", "quantifier": "every bank size, digest content and hash function", "why_tests_cant": "All contents.", "anchors": ["core/attestation/pcr.c: pcr_compute"]}
{"id": "C37", "title": "Measured data reads are windows of one byte string", "statement": "Reading the raw data of a measurement with any offset and length returns the corresponding window of event type || version || data, and the bytes hashed for another algorithm are this same string.", "quantifier": "every measurement configuration, data source, offset and length", "why_tests_cant": "All windows.", "anchors": ["core/attestation/pcr.c: pcr_get_measurement_data, pcr_hash_measurement_data"]}
{"id": "C38", "title": "The TCG log can be read in chunks", "statement": "Reading the TCG event log with any offset and buffer size returns the corresponding window of one well-defined log; concatenating consecutive chunks gives the log.", "quantifier": "every store configuration, offset and length", "why_tests_cant": "All chunkings across entry boundaries.", "anchors": ["core/attestation/pcr.c: pcr_get_tcg_log", "core/attestation/pcr_store.c: pcr_store_get_tcg_log"]}
{"id": "C39", "title": "The attestation log can be read in chunks", "statement": "Reading the attestation log with any offset and size returns the corresponding window of one log whose entries chain to the PCR values, and whose size is the advertised size.", "quantifier": "every store configuration, offset and length", "why_tests_cant": "All chunkings.", "anchors": ["core/attestation/pcr_store.c: pcr_store_get_attestation_log, pcr_store_get_attestation_log_size"]}
{"id": "C40", "title": "Invalid measurement indices never touch memory", "statement": "A PCR call with an index the bank does not have is refused without accessing memory outside the bank.", "quantifier": "every call and every index", "why_tests_cant": "All indices over all entry points.", "anchors": ["core/attestation/pcr.c: pcr_update_buffer_common"]}
{"id": "C41", "title": "An in-use or active manifest is never overwritten", "statement": "For any sequence of manifest manager calls, flash erase and write operations only ever hit the pending region while it is neither active-and-valid nor referenced.", "quantifier": "every sequence of manager calls and verification outcomes", "why_tests_cant": "Unbounded histories.", "anchors": ["core/manifest/manifest_manager_flash.c"]}
{"id": "C42", "title": "Manifest ids only move forward", "statement": "While a valid manifest is active, only a manifest that verified and has a strictly greater id (and compatible platform id) can replace it.", "quantifier": "every sequence of manager calls", "why_tests_cant": "Unbounded histories.", "anchors": ["core/manifest/manifest_manager_flash.c: manifest_manager_flash_verify_pending_manifest, manifest_manager_flash_activate_pending_manifest"]}
{"id": "C43", "title": "A manifest handed out is reference counted", "statement": "Every manifest handle returned to a caller is covered by a reference until it is released, in every interleaving with a verification running on another thread.", "quantifier": "every interleaving", "why_tests_cant": "Race between unlock and a later read.", "anchors": ["core/manifest/manifest_manager_flash.c: manifest_manager_flash_get_manifest_region"]}
{"id": "C44", "title": "Revoked manifest keys stay revoked", "statement": "After a manifest signed with the new default key was activated, a signature by the previously stored key is never accepted again in this boot, and not after a restart either if saving the key succeeded; a decision is always based on a key that was checked.", "quantifier": "every sequence of verifications, activations and restarts with failures", "why_tests_cant": "Unbounded histories with failure injection.", "anchors": ["core/manifest/manifest_verification.c"]}
{"id": "C45", "title": "A verified manifest is fully signed", "statement": "When a manifest verifies, the digest that was checked against the signature is the digest of exactly the manifest bytes before the signature, each hashed once and in order.", "quantifier": "every flash content and table of contents layout, including extensions", "why_tests_cant": "All adversarial layouts.", "anchors": ["core/manifest/manifest_flash.c: manifest_flash_verify_v2"]}
{"id": "C46", "title": "Manifest elements are authenticated when read", "statement": "Element data with a hash that is returned by a later read was covered by the table of contents that was verified; changing the flash in between is detected.", "quantifier": "every flash content at verification and at read time", "why_tests_cant": "All pairs of contents.", "anchors": ["core/manifest/manifest_flash.c: manifest_flash_read_element_data_common"]}
{"id": "C47", "title": "Authorization tokens are single use", "statement": "An authorized operation is granted only for data carrying the currently active, unexpired token and a valid signature over it, and each issued token grants at most one operation.", "quantifier": "every sequence of challenge and response messages", "why_tests_cant": "Unbounded adversarial histories.", "anchors": ["core/common/auth_token.c", "core/common/authorization_challenge.c"]}
{"id": "C48", "title": "Authenticated data was signed", "statement": "The additional data extracted from an accepted authorization payload lies within the bytes covered by the signature.", "quantifier": "every payload accepted by the authorization", "why_tests_cant": "All adversarial headers.", "anchors": ["core/common/authorized_data_with_aad.c", "core/common/auth_token.c: auth_token_verify_data"]}
{"id": "C49", "title": "Session IVs never repeat", "statement": "During the lifetime of a session key no two messages are encrypted with the same initialization vector; when the counter is exhausted encryption is refused.", "quantifier": "every history of session operations", "why_tests_cant": "2^96 messages.", "anchors": ["core/cmd_interface/session_manager.c: session_manager_encrypt_message, session_manager_add_session"]}
{"id": "C50", "title": "Sessions are keyed by endpoint", "statement": "At most one session exists per endpoint, operations on one endpoint never disturb another, and message encryption requires an established session.", "quantifier": "every history of session operations", "why_tests_cant": "Unbounded histories.", "anchors": ["core/cmd_interface/session_manager.c"]}
{"id": "C51", "title": "Reset counters count", "statement": "Each increment raises exactly the addressed counter by one, leaving the others, also when two tasks increment concurrently.", "quantifier": "every sequence and interleaving of counter operations", "why_tests_cant": "Interleavings between read and write.", "anchors": ["core/cmd_interface/counter_manager_registers.c"]}
{"id": "C52", "title": "Overflowed transactions are dropped completely", "statement": "For any stream of received packets no part of a transaction that overflowed the receive buffer (overflow packets followed by the rest of the transaction) reaches message processing, and every packet of another transaction does.", "quantifier": "every sequence of received packet states", "why_tests_cant": "Unbounded streams.", "anchors": ["core/cmd_interface/cmd_channel.c: cmd_channel_receive_and_process"]}
{"id": "C53", "title": "Message header bookkeeping stays in the buffer", "statement": "Adding and removing protocol headers keeps the payload window inside the message buffer and is reversible.", "quantifier": "every sequence of header operations", "why_tests_cant": "Unbounded sequences.", "anchors": ["core/cmd_interface/cmd_interface.c: cmd_interface_msg_*"]}
{"id": "C54", "title": "Factory reset resets everything", "statement": "If restoring defaults reports success, every manifest, state, certificate, key and recovery image under its control was cleared.", "quantifier": "every configuration and failure pattern", "why_tests_cant": "All failure positions.", "anchors": ["core/cmd_interface/config_reset.c: config_reset_restore_defaults"]}
{"id": "C55", "title": "HMAC and HKDF-Extract are the standard functions", "statement": "For every key length and every chunking of the data the HMAC is RFC 2104's over the concatenated data; the key material is cleared and the hash engine released on every path; HKDF extract either stores exactly the RFC 5869 PRK or stores none.", "quantifier": "every key, every sequence of updates, every failure of the hash engine", "why_tests_cant": "All key lengths, chunkings and failure points.", "anchors": ["core/crypto/hash.c: hash_hmac_init, hash_hmac_update, hash_hmac_finish", "core/crypto/hkdf.c: hkdf_extract"]}
{"id": "C56", "title": "Responses survive packetization in place", "statement": "A response of any allowed length is sent as packets whose payloads concatenate to the response, for every packet size negotiated with the requester, although packets are built in the buffer holding the response.", "quantifier": "every response, every packet size a remote device may report", "why_tests_cant": "All pairs of sizes; small packet sizes make the packet writer overtake the reader.", "anchors": ["core/mctp/mctp_interface.c: mctp_interface_handle_request_message, mctp_interface_generate_packets_from_payload", "core/cmd_interface/device_manager.c: device_manager_get_max_transmission_unit"]}
{"id": "C57", "title": "Sequential measurement ids enumerate the measurements", "statement": "The ids 0, 1, 2, ... below the advertised total map to the measurements of all PCRs that hold a list of measurements, in order, each exactly once; every other id is refused.", "quantifier": "every store configuration and id", "why_tests_cant": "All configurations mixing explicit PCRs and lists.", "anchors": ["core/attestation/pcr_store.c: pcr_store_get_measurement_type, pcr_store_get_num_total_measurements"]}
{"id": "C58", "title": "Encrypted messages arrive", "statement": "A message encrypted for an established session is decrypted by the other side, with the same session key, to the same message.", "quantifier": "every message, key, initialization vector and pair of session tables", "why_tests_cant": "All lengths and header values; a header without payload is a legal message.", "anchors": ["core/cmd_interface/session_manager.c: session_manager_encrypt_message, session_manager_decrypt_message"]}
{"id": "C59", "title": "Pairing keys are set once and used safely", "statement": "The pairing key of an endpoint is saved at most once, derived from the established session of that endpoint; only an endpoint that proves knowledge of it gets a paired session, and handling it never writes outside its buffer.", "quantifier": "every history of session operations, with failures of the key store and engines, and every content of the key store", "why_tests_cant": "Unbounded histories and key store contents.", "anchors": ["core/cmd_interface/session_manager.c: session_manager_setup_paired_session"]}
{"id": "C60", "title": "Messages on a channel are sent whole and apart", "statement": "Whatever several tasks send on one channel at the same time and however the bus behaves, the packets of a message that was reported as sent are the message split in order; an expired reply sends nothing; no packet overruns its buffer; and packets of different messages are not mixed.", "quantifier": "every interleaving of senders, every behaviour of the bus driver, every message and packet size", "why_tests_cant": "Interleavings and bus behaviour.", "anchors": ["core/cmd_interface/cmd_channel.c: cmd_channel_send_packets, cmd_channel_send_message"]}
{"id": "C61", "title": "Firmware updates never brick the device", "statement": "A device with a recovery image can be booted, from its active or its recovery image under the revocation state stored in it, in every state it passes through, whatever update requests it gets and whichever steps of them fail, and wherever it loses power.", "quantifier": "every history of boots, update requests, failures and resets; every image content; every crash point", "why_tests_cant": "Crash points inside flash operations and unbounded histories of failures; the conditions on the images are only tested with mocks.", "anchors": ["core/firmware/firmware_update.c: firmware_update_run_update, firmware_update_run_update_no_revocation, firmware_update_run_revocation, firmware_update_write_image", "core/firmware/firmware_update_handler.c: firmware_update_handler_prepare"]}
{"id": "C62", "title": "Only acceptable images are installed", "statement": "A firmware update either fails without touching the images and the revocation state, or the staged image was complete, signed by a manifest that is not revoked and, if rollback is not allowed, not older than the least revision. A successful update leaves exactly the staged image in the active region, and in the recovery region if that one was bad, has another revision or would be revoked.", "quantifier": "every state, image and failure pattern", "why_tests_cant": "All images and failures at each step.", "anchors": ["core/firmware/firmware_update.c: firmware_update_load_and_verify_image, firmware_update_apply_update, firmware_update_run_update"]}
{"id": "C63", "title": "Updates that need authorization install only the authorized image", "statement": "An updater that requires authorization installs only an image with the digest it was authorized for.", "quantifier": "every history of update requests and every image", "why_tests_cant": "Histories mix failing and successful requests.", "anchors": ["core/firmware/firmware_update.c: firmware_update_set_image_digest, firmware_update_prepare_staging, firmware_update_write_to_staging, firmware_update_run_update", "core/flash/flash_updater.c: flash_updater_prepare_for_update"]}
{"id": "C64", "title": "Revocation is recorded, and only when both images survive it", "statement": "A successful update to a manifest that revokes older ones records the revocation; the revocation state changes only when the active and the recovery image are both good under the new one.", "quantifier": "every history, image, configuration of flash regions and failure pattern", "why_tests_cant": "Depends on the order of loading images and reading manifests; mocks hide that.", "anchors": ["core/firmware/firmware_update.c: firmware_update_process_manifest_revocation", "core/firmware/firmware_image.h: firmware_image.get_key_manifest"]}
{"id": "C65", "title": "A host flash that is accepted holds only what the manifest allows", "statement": "If the full verification of a host flash succeeds, every image of every firmware in the manifest is authentic, every byte outside of images and read/write regions is blank, and nothing was changed; a flash for which all that holds is accepted, and the verification ends. At boot the same holds for the images marked for it.", "quantifier": "every flash content, manifest content, flash size, number of regions and driver failure pattern", "why_tests_cant": "All layouts of regions; a check that never ends cannot be found by a test that does not hang.", "anchors": ["core/host_fw/host_fw_util.c: host_fw_full_flash_verification_multiple_fw, host_fw_verify_offset_images_multiple_fw, host_fw_verify_images_on_flash, host_fw_find_next_flash_region", "core/flash/flash_util.c: flash_value_check, flash_verify_noncontiguous_contents_at_offset"]}
{"id": "C66", "title": "The host can write exactly the read/write regions", "statement": "After the read/write regions of the active manifest are configured in the SPI filter, the host can write the addresses in these regions and no others. After a failure it can write no others either, unless the old regions could not be cleared.", "quantifier": "every list of regions, state of the filter and driver failure pattern", "why_tests_cant": "Joining of neighbouring regions depends on their layout; failures in the middle.", "anchors": ["core/host_fw/host_fw_util.c: host_fw_config_spi_filter_read_write_regions, host_fw_config_spi_filter_read_write_regions_multiple_fw"]}
{"id": "C67", "title": "The version that is found is on the flash", "statement": "The firmware version that is determined for a flash is the last one in the list of supported versions whose identifier is at its address; 'unsupported' is reported only if none is.", "quantifier": "every flash content, list of versions (also several at one address and prefixes of each other) and driver failure pattern", "why_tests_cant": "Reads are cached between versions at one address; the result must not depend on that.", "anchors": ["core/host_fw/host_fw_util.c: host_fw_determine_offset_version"]}
{"id": "C68", "title": "Manifests are considered the same only if they ask for the same", "statement": "Two lists of images (or of read/write regions) are reported as not different exactly if they have the same images with the same hashes or signatures, flags and regions. The answer decides whether the verification of a flash is skipped.", "quantifier": "all pairs of lists", "why_tests_cant": "All lengths of hashes, orders and layouts of regions.", "anchors": ["core/host_fw/host_fw_util.c: host_fw_are_images_different, host_fw_are_regions_different, host_fw_are_read_write_regions_different"]}
{"id": "C69", "title": "Migrating and restoring data changes what it should and nothing else", "statement": "Migrating read/write data changes nothing outside of the erase blocks of the read/write regions, whatever fails; if it succeeds they hold what the source holds and the source has the same regions. Restoring a flash leaves images as on the other flash, blank bytes elsewhere and the read/write data as it was. Restoring read/write data leaves each region erased, as on the other flash, or as it was.", "quantifier": "every flash content, layout of regions and driver failure pattern", "why_tests_cant": "All layouts and every failure point; frame conditions over all addresses.", "anchors": ["core/host_fw/host_fw_util.c: host_fw_migrate_read_write_data, host_fw_migrate_read_write_data_multiple_fw, host_fw_restore_flash_device, host_fw_restore_read_write_data"]}
{"id": "C70", "title": "The host only runs firmware that was verified", "statement": "In every state of every run, a host that is out of reset, has access to its flash, is not in bypass mode and has an active platform firmware manifest runs from a flash device that the filter protects from writes and whose contents were verified with the active manifest (or hold the recovery image). A power-on that succeeds leaves the host protected or in bypass mode.", "quantifier": "every history of boots, resets, run-time verifications, rollbacks, recoveries, new and cleared manifests and settings; every pattern of failures of drivers, also after they took effect; everything the host writes and when", "why_tests_cant": "The histories and failure points are unbounded, and the host acts between any two steps.", "anchors": ["core/host_fw/host_processor_filtered.c", "core/host_fw/host_processor_dual.c", "core/host_fw/host_processor_dual_full_bypass.c", "core/host_fw/host_flash_manager_dual.c", "core/host_fw/host_irq_handler.c: host_irq_handler_power_on", "core/host_fw/host_state_manager.c"]}
{"id": "C71", "title": "A rollback ends on authenticated firmware or changes nothing", "statement": "A rollback with an active manifest that reports success leaves the host with the other flash device, whose whole contents pass verification with the active manifest. One that reports an error leaves the host with the same device and the same contents as before.", "quantifier": "every state of the flash, failure pattern and activity of the host during the rollback", "why_tests_cant": "All failure points, with the host writing to flash until it loses access.", "anchors": ["core/host_fw/host_processor_dual.c: host_processor_dual_flash_rollback", "core/host_fw/host_flash_manager_dual.c: host_flash_manager_dual_swap_flash_devices"]}
{"id": "C72", "title": "New firmware is applied only at the events it is allowed for", "statement": "A verification at run time does not change the flash device the host boots from; a reset does not either if the host is configured to apply new firmware at other events only; and the announced actions for the next reset are those that are performed.", "quantifier": "every state, failure pattern and activity of the host", "why_tests_cant": "All combinations of settings, pending manifests and dirty states, with failures.", "anchors": ["core/host_fw/host_processor.h: run_time_verification", "core/host_fw/host_processor_dual.c: host_processor_dual_run_time_verification, host_processor_dual_prepare_verification, host_processor_dual_finalize_verification", "core/host_fw/host_processor_filtered.c: host_processor_filtered_update_verification, host_processor_filtered_get_next_reset_verification_actions"]}
{"id": "C73", "title": "Validated host flash holds exactly what the platform firmware manifest allows", "statement": "If host flash is validated with a platform firmware manifest (PFM), then for each firmware the PFM lists, a version that it supports is on the flash, the images of that version (at a boot: those to be checked at each boot) are authentic, and after a full validation every byte outside of images and read/write regions is blank. The read/write regions that are reported are those of that version. Flash that satisfies this is accepted.", "quantifier": "every flash content, PFM, list of firmware, failure of the drivers and of memory allocation", "why_tests_cant": "Flash contents, PFMs and failure patterns are unbounded.", "anchors": ["core/host_fw/host_flash_manager.c: host_flash_manager_validate_flash, host_flash_manager_get_image_entry, host_flash_manager_get_flash_read_write_regions", "core/host_fw/host_fw_util.c", "core/host_fw/host_flash_manager_dual.c: host_flash_manager_dual_validate_read_only_flash"]}
{"id": "C74", "title": "Validation frees what it allocates, once, on every path", "statement": "However validation of host flash ends, everything that was obtained from the manifest or the heap is freed exactly once, except for the read/write regions, which stay allocated exactly if validation succeeded and they were asked for; freeing those leaves nothing.", "quantifier": "every PFM, flash content and failure point", "why_tests_cant": "Memory is released on a different path for each failure point in nested loops.", "anchors": ["core/host_fw/host_flash_manager.c: host_flash_manager_validate_flash, host_flash_manager_validate_pfm, host_flash_manager_get_flash_read_write_regions, host_flash_manager_free_read_write_regions, host_flash_manager_free_images"]}
{"id": "C75", "title": "A boot with a known good manifest still runs authentic images", "statement": "If flash is validated with a new PFM knowing that it is good for another one, then the images that are to be checked at each boot are either authentic or the same as authentic images of the known PFM.", "quantifier": "every pair of PFMs and flash content", "why_tests_cant": "All pairs of manifests; the comparison is a search over unordered lists of images and regions.", "anchors": ["core/host_fw/host_flash_manager.c: host_flash_manager_validate_pfm", "core/host_fw/host_fw_util.c: host_fw_are_images_different"]}
{"id": "C76", "title": "The SPI filter knows the flash devices as they are", "statement": "Configuring the SPI filter succeeds only if both flash devices have the same manufacturer, device, size, address mode, ways to change it and address mode after a reset, and the filter was told exactly these (size, write enable and mode after reset only if the filter supports them). The devices are not changed but for the address mode of the second.", "quantifier": "every pair of devices, every state of the drivers and filter, every pattern of failed and unsupported calls", "why_tests_cant": "All combinations of capabilities, address modes and failures.", "anchors": ["core/host_fw/host_flash_manager.c: host_flash_manager_config_spi_filter_flash_type", "core/flash/spi_flash.c: spi_flash_is_address_mode_fixed, spi_flash_address_mode_requires_write_enable, spi_flash_is_4byte_address_mode_on_reset, spi_flash_enable_4byte_address_mode"]}
{"id": "C77", "title": "Flash is taken from the host before it is used", "statement": "Taking the flash sends no command to a flash device before the host has lost access, whatever fails; if it succeeds, the host has no access, and each device is identified, idle, not write-protected, in quad mode and its address mode is known to the driver. The host is reported to have access exactly if both the filter and the switch give it.", "quantifier": "every state of devices, filter and switch, every failure pattern", "why_tests_cant": "All failure points in all states.", "anchors": ["core/host_fw/host_flash_manager.c: host_flash_manager_set_flash_for_rot_access, host_flash_manager_configure_flash_for_rot_access, host_flash_manager_set_flash_for_host_access, host_flash_manager_host_has_flash_access", "core/host_fw/host_flash_initialization.c: host_flash_initialization_initialize_flash", "core/flash/spi_flash.c: spi_flash_detect_4byte_address_mode"]}
{"id": "C78", "title": "SPI flash reads, writes and erases exactly what it is asked to", "statement": "With driver and device in the same address mode, a successful read returns the bytes at the address; a write programs exactly as many bytes as it reports, across pages, and bytes outside of the data are never touched; only the data of one page is in doubt if not everything was written; sector, block and chip erase set exactly their region to 0xff, and a failed erase changes nothing outside of it. Nothing beyond the device is accessed.", "quantifier": "every address, length, data, device content, failure of any transaction and time that the device is busy", "why_tests_cant": "Failures can happen at each transaction, at each alignment of address and length.", "anchors": ["core/flash/spi_flash.c: spi_flash_read, spi_flash_write, spi_flash_sector_erase, spi_flash_block_erase, spi_flash_chip_erase, spi_flash_wait_for_write_completion"]}
{"id": "C79", "title": "The SPI flash driver sends only commands that the device expects", "statement": "In every history of operations with any failures, the device gets no command other than a status read while it is busy, no program or erase without write enable, and always the number of address bytes that it expects.", "quantifier": "every history of reads, writes, erases, resets and changes of address mode, every pattern of failed transactions", "why_tests_cant": "Histories and failure patterns are unbounded.", "anchors": ["core/flash/spi_flash.c: spi_flash_write, spi_flash_erase_region, spi_flash_chip_erase, spi_flash_reset_device, spi_flash_enable_4byte_address_mode"]}
{"id": "C80", "title": "Driver and SPI flash device keep agreeing on address bytes", "statement": "After the properties of a device were discovered or restored, driver and device agree on the number of address bytes of each command, whatever is done and whatever fails. After a successful switch, detection or reset, the driver reports the address mode of the device.", "quantifier": "every device description, history of operations and pattern of failed transactions", "why_tests_cant": "A failed transaction may or may not have changed the device; histories are unbounded.", "anchors": ["core/flash/spi_flash.c: spi_flash_discover_device_properties, spi_flash_restore_device, spi_flash_save_device_info, spi_flash_enable_4byte_address_mode, spi_flash_detect_4byte_address_mode, spi_flash_reset_device, spi_flash_is_4byte_address_mode_on_reset"]}
{"id": "C81", "title": "A recovery image that verifies is complete, signed and for this platform", "statement": "If verification of a recovery image succeeds, the flash holds a header of the documented form, the signature covers everything before it and checks out, the platform identifier is that of the active PFM, and the sections tile the image, in ascending order of host addresses without overlaps; the hash that is kept is that of the image. Each such image verifies. Applying a verified image writes exactly the sections to the host flash.", "quantifier": "every content of the flash, active PFM, signature check and pattern of failed reads", "why_tests_cant": "Images are untrusted and of any shape.", "anchors": ["core/recovery/recovery_image.c: recovery_image_verify, recovery_image_apply_to_flash, recovery_image_get_hash", "core/recovery/recovery_image_header.c: recovery_image_header_init", "core/recovery/recovery_image_section_header.c: recovery_image_section_header_init"]}
{"id": "C82", "title": "Verifying a recovery image from untrusted flash is safe and ends", "statement": "For any flash content, verification ends, reads no byte outside of what was loaded from flash, and the version that is returned is a terminated string.", "quantifier": "every flash content", "why_tests_cant": "The contents are given by an attacker before any check of the signature.", "anchors": ["core/recovery/recovery_image.c: recovery_image_verify, recovery_image_get_version", "core/recovery/recovery_image_header.c: recovery_image_header_init", "core/common/image_header.c: image_header_init"]}
{"id": "C83", "title": "The active recovery image was verified and is not changed while it is used", "statement": "In every history of updates, activations, resets and flash failures, the image that is handed out as active was verified and its region has not changed since; a region is not changed while an image in it is in use; an image becomes active only by a successful activation of completely written and verified data, or at a reset; with two regions, power loss during an update keeps the image that was active.", "quantifier": "every history of operations and resets, every pattern of flash failures, every initial flash content and every point of power loss between operations", "why_tests_cant": "Histories are unbounded and failures can be at each flash access.", "anchors": ["core/recovery/recovery_image_manager.c: recovery_image_manager_get_active_recovery_image, recovery_image_manager_clear_recovery_image_region, recovery_image_manager_write_recovery_image_data, recovery_image_manager_activate_recovery_image, recovery_image_manager_erase_all_recovery_regions, recovery_image_manager_init_two_region"]}
{"id": "C84", "title": "The measurement of the recovery image is that of the active image", "statement": "The measured data, read with any offset and length, is the digest of the active image when it was verified, or 32 zeros without one. What observers were told last is the same value.", "quantifier": "every history of operations, resets and flash failures, every offset and length", "why_tests_cant": "Histories are unbounded.", "anchors": ["core/recovery/recovery_image_manager.c: recovery_image_manager_get_measured_data, recovery_image_manager_hash_measured_data, recovery_image_manager_erase_all_recovery_regions", "core/recovery/recovery_image_observer_pcr.c: recovery_image_observer_pcr_on_recovery_image_activated, recovery_image_observer_pcr_on_recovery_image_deactivated"]}
{"id": "C85", "title": "Requests touch only their message buffer", "statement": "Whatever bytes a message contains, its handling by any of the command handlers reads and writes only within the message buffer, and reads no byte that is neither part of the request nor written since.", "quantifier": "every message up to 4096 bytes, every negotiated size, set of present components and behaviour of the components that are called", "why_tests_cant": "More than fifty commands, each with arbitrary contents and sizes.", "anchors": ["core/cmd_interface/cmd_interface_system.c: cmd_interface_system_process_request", "core/cmd_interface/cerberus_protocol_required_commands.c", "core/cmd_interface/cerberus_protocol_optional_commands.c", "core/cmd_interface/cerberus_protocol_master_commands.c", "core/cmd_interface/cerberus_protocol_diagnostic_commands.c", "core/cmd_interface/cerberus_protocol_debug_commands.c", "core/mctp/cmd_interface_protocol_mctp_msft_vdm.c"]}
{"id": "C86", "title": "Every request gets one well-formed response of at most the negotiated size", "statement": "Each message of the protocol is answered with exactly one message: the response of its command or an error message, completely determined, with the header of the protocol, the request bit of the request, and no longer than the size negotiated with the requester. Other messages are dropped without effects.", "quantifier": "every message up to 4096 bytes, every negotiated size, set of present components and behaviour of the components that are called", "why_tests_cant": "More than fifty commands, each with arbitrary contents and sizes.", "anchors": ["core/cmd_interface/cmd_interface_system.c: cmd_interface_system_process_request", "core/cmd_interface/cerberus_protocol_required_commands.c", "core/cmd_interface/cerberus_protocol_optional_commands.c", "core/cmd_interface/cerberus_protocol_master_commands.c", "core/cmd_interface/cerberus_protocol_diagnostic_commands.c", "core/cmd_interface/cerberus_protocol_debug_commands.c", "core/mctp/cmd_interface_protocol_mctp_msft_vdm.c"]}
{"id": "C87", "title": "Requests change exactly what they ask for", "statement": "The operations that change the device (sessions, certificates, logs, firmware update, manifests, recovery images, flash configuration, unsealing, resets) started by a request are exactly those its command stands for, with the arguments it carries; a request with a wrong length, an index out of range, reserved header bits or a failed decryption starts none; a reset runs only if its authorization succeeded.", "quantifier": "every message up to 4096 bytes, every negotiated size, set of present components and behaviour of the components that are called", "why_tests_cant": "Wrong requests are of any form.", "anchors": ["core/cmd_interface/cmd_interface_system.c: cmd_interface_system_process_request", "core/cmd_interface/cerberus_protocol_required_commands.c", "core/cmd_interface/cerberus_protocol_optional_commands.c", "core/cmd_interface/cerberus_protocol_master_commands.c", "core/cmd_interface/cerberus_protocol_diagnostic_commands.c", "core/cmd_interface/cerberus_protocol_debug_commands.c", "core/mctp/cmd_interface_protocol_mctp_msft_vdm.c"]}
{"id": "C88", "title": "A certificate read in parts is complete", "statement": "A requester that asks for the parts of a certificate one after the other until nothing comes gets the certificate, without gaps or repetitions, whatever the negotiated size.", "quantifier": "every certificate up to 65535 bytes, slot, number and negotiated size", "why_tests_cant": "The number of parts depends on both sizes.", "anchors": ["core/cmd_interface/cerberus_protocol_required_commands.c: cerberus_protocol_get_certificate", "core/mctp/cmd_interface_protocol_mctp_msft_vdm.c"]}
{"id": "C89", "title": "Negotiated sizes are per endpoint", "statement": "Only a request for device capabilities changes a negotiated size, and only that of the endpoint it comes from; the new limit is the smaller of the announced size and that of the device.", "quantifier": "every table of devices, message and behaviour of the components that are called", "why_tests_cant": "Any request of any endpoint could interfere.", "anchors": ["core/cmd_interface/cerberus_protocol_required_commands.c: cerberus_protocol_get_device_capabilities", "core/cmd_interface/device_manager.c: device_manager_get_max_message_len_by_eid, device_manager_update_device_capabilities_request"]}
{"id": "C90", "title": "Responses marked as encrypted are encrypted", "statement": "A response with the encryption bit answers an encrypted request, and everything behind its header is the output of the encryption with the session key.", "quantifier": "every message and behaviour of the components that are called", "why_tests_cant": "Each of more than fifty commands has its own path to the response.", "anchors": ["core/cmd_interface/cmd_interface_system.c: cmd_interface_system_process_request", "core/cmd_interface/cmd_interface.c: cmd_interface_prepare_response", "core/cmd_interface/session_manager.c: session_manager_encrypt_message, session_manager_decrypt_message"]}
{"id": "C91", "title": "The log in flash keeps its entries through failures and restarts", "statement": "Starting from an empty log, whatever is created, flushed and cleared, however the flash fails and whenever power is lost, the log reads as the entries that were created, in their order, with consecutive identifiers, at any offset and length, and its size is theirs. Only the oldest entries are dropped, when there is no space left. An entry that has been flushed survives a loss of power; of the entries that were not yet flushed a beginning survives. With a working flash every entry of 1 to 4089 bytes is accepted.", "quantifier": "every history of creating, flushing, clearing and restarts, every outcome of the flash operations and every number of programmed bytes", "why_tests_cant": "Crash points and failures combine with every fill level of sixteen sectors.", "anchors": ["core/logging/logging_flash.c: logging_flash_create_entry, logging_flash_flush, logging_flash_clear, logging_flash_get_size, logging_flash_read_contents, logging_flash_init_state"]}
{"id": "C92", "title": "Every request is answered with exactly the data the protocol defines for it", "statement": "For each of the 55 commands, with and without an encrypted session, the response is the message of a table: the header of the request, then the fields of the command in the order and widths the protocol defines, filled from what the device parts report; success without data and every error are reported as such, with the error the first failing check calls for. Within a session, what is encrypted is the command and the data of the answer, nothing more and nothing less.", "quantifier": "every request of every length and content up to the buffer, every device configuration, every behaviour of the device parts that keeps to their interfaces, every negotiated size", "why_tests_cant": "55 commands times lengths, indices, absent parts and failing parts; tests compare a few responses each.", "anchors": ["core/cmd_interface/cerberus_protocol_required_commands.c", "core/cmd_interface/cerberus_protocol_optional_commands.c", "core/cmd_interface/cerberus_protocol_master_commands.c", "core/cmd_interface/cmd_interface_system.c: cmd_interface_system_process_request", "core/cmd_interface/cmd_interface.c: cmd_interface_prepare_response"]}
{"id": "C93", "title": "The recovery interface writes only the windows it was given, and stores and delivers images unchanged", "statement": "Whatever commands and data a host sends to the OCP recovery interface, in whatever order: every call ends and stays within its buffers, regions that are not writable, memory behind a region and flash outside the writable region are never changed. Data goes to the selected position and wraps at the end of the region; an image sent in pieces is what the region then holds, and fetching a region delivers its content.", "quantifier": "every list of regions, every history of commands and data, every failure of the flash, every image and division in pieces", "why_tests_cant": "The position, the wrap, the erase mark and the region selected depend on the whole history of requests.", "anchors": ["core/recovery/ocp_recovery_device.c: ocp_recovery_device_init_state, ocp_recovery_device_write_request, ocp_recovery_device_read_request, ocp_recovery_device_write_indirect_data, ocp_recovery_device_read_indirect_data"]}
{"id": "C94", "title": "Resets and activations happen exactly when a recovery host asks for them", "statement": "The resets, management resets and image activations the hardware is asked for are exactly those of the well-formed RESET and RECOVERY_CTRL requests in the history, in their order, with the requested region and forced recovery flag; no other call causes one. The recovery status always tells the result of the last activation: successful, not authentic, failed or not an image region.", "quantifier": "every history of calls, every hardware interface and every answer of the hardware", "why_tests_cant": "Absence of an action must be shown for all requests.", "anchors": ["core/recovery/ocp_recovery_device.c: ocp_recovery_device_write_reset, ocp_recovery_device_write_recovery_ctrl, ocp_recovery_device_write_request"]}
{"id": "C95", "title": "The recovery status reports the last protocol error", "statement": "The protocol error in the device status is the kind of the last error since the host last read the status: unsupported command, unsupported parameter, wrong length or wrong checksum, and none if there was no error. Reading the status clears it.", "quantifier": "every history of calls", "why_tests_cant": "The report accumulates over a history of requests.", "anchors": ["core/recovery/ocp_recovery_device.c: ocp_recovery_device_start_new_command, ocp_recovery_device_write_request, ocp_recovery_device_read_request, ocp_recovery_device_checksum_failure, ocp_recovery_device_write_overflow, ocp_recovery_device_write_incomplete"]}
{"id": "C96", "title": "SMBus transactions reach the recovery handler only if they are complete and their checksum is right", "statement": "For any sequence of start, byte, stop and read events on the bus, nothing leaves the buffers. A write transaction is executed if its command code is known, it has as many bytes as announced and its checksum, if present, is that of all its bytes; otherwise only the error report changes. A read transaction sends the length, the response and the checksum of the whole transaction.", "quantifier": "every sequence of bus events, every command, length and content", "why_tests_cant": "Framing must hold for every sequence of events, including unfinished transactions.", "anchors": ["core/recovery/ocp_recovery_smbus.c: ocp_recovery_smbus_start, ocp_recovery_smbus_stop, ocp_recovery_smbus_receive_byte, ocp_recovery_smbus_transmit_bytes"]}
{"id": "C97", "title": "A device is unlocked only with the current token, once, and with the policy the authority signed", "statement": "Whatever requests reach the unlock interface, in whatever order: the security manager is asked to unlock the device only with data that carries the token handed out last and a signature of the authority over it, the device was neither unlocked nor locked since that token was made, and the token has not expired. Data that unlocked the device once never does so again. The policy, counter and nonce found in the data are the signed ones. A signed container for the current token unlocks the device.", "quantifier": "every history of requests, every content of the data, every failure of the engines and of the security manager", "why_tests_cant": "Freshness and single use are about the whole history of requests.", "anchors": ["core/system/secure_device_unlock_policy.c: secure_device_unlock_policy_apply_unlock_policy, secure_device_unlock_policy_clear_unlock_policy", "core/system/device_unlock_token.c: device_unlock_token_authenicate, device_unlock_token_get_unlock_policy", "core/common/auth_token.c: auth_token_verify_data"]}
{"id": "C98", "title": "Unlock tokens exist for locked devices only and say what they should", "statement": "Every token made consists of the type and identifier of the device, the next counter value that means unlocked, a fresh nonce and the signature of the device over all this; it is made only while the counter of the device means locked. A token handed out is the one made. A locked device whose counter has room gives a token. Building tokens and looking into signed data never touches memory outside the buffers.", "quantifier": "every history of requests, every counter, identifier, buffer size and data", "why_tests_cant": "The layout must be right for all lengths, and parsing safe for all inputs.", "anchors": ["core/system/device_unlock_token.c: device_unlock_token_generate, device_unlock_token_get_unlock_counter, device_unlock_token_get_nonce", "core/system/secure_device_unlock_policy.c: secure_device_unlock_policy_get_unlock_token"]}
{"id": "C99", "title": "A device is moved to the RMA state only by data that names this very device", "statement": "The transition is started exactly when the data consists of the device type (with its length in any of the DER forms), format 1, the magic number, the identifier of this device and the hash of its public key, followed by a signature of the authority over all of that; without signatures, exactly when nothing follows. Nothing is read outside the data.", "quantifier": "every data, device type, identifier and key hash", "why_tests_cant": "The accepted set is infinite and includes several forms of the length.", "anchors": ["core/rma/rma_unlock_token.c: rma_unlock_token_authenticate, rma_unlock_token_authenticate_no_signature", "core/rma/secure_device_unlock_rma.c: secure_device_unlock_rma_apply_unlock_policy", "core/rma/authorized_execution_rma.c: authorized_execution_rma_execute"]}
{"id": "C100", "title": "The device interface security responder answers every request exactly, in its buffer", "statement": "Every secured request with a complete header gets exactly the answer the protocol prescribes: the version list, the capabilities, the report portion, the state, the nonce of a lock, or the error with its code for bad versions, sizes, interfaces, states and failures. The driver is called for exactly the requests that pass all checks, with the right function and parameters. Requests that are not secured or shorter than the header change nothing. No access leaves the buffer.", "quantifier": "every request, every state of all interfaces, every behaviour of the driver, of the contexts and of the random number generator", "why_tests_cant": "Requests, states and driver results form an unbounded space; memory safety holds for all lengths or not at all.", "anchors": ["core/pcisig/tdisp/tdisp_commands.c", "core/pcisig/tdisp/cmd_interface_tdisp_responder.c: cmd_interface_tdisp_responder_process_request"]}
{"id": "C101", "title": "A device interface is started only with the nonce of its last lock, and once", "statement": "In every history of requests, interfaces are started only by secured requests that carry the nonce handed out in the last lock answer for this interface; an interface with a valid nonce is not locked again; and a nonce starts an interface at most once. A context remembers for each field exactly whether and which value was stored since it was cleared.", "quantifier": "every history of requests and context changes, every driver that does not invent nonces", "why_tests_cant": "Freshness is a property of whole histories.", "anchors": ["core/pcisig/tdisp/tdisp_commands.c: tdisp_lock_interface_request, tdisp_start_interface_request", "core/pcisig/tdisp/tdisp_tdi_context_manager.c"]}
{"id": "C102", "title": "No firmware update while a locked interface forbids it", "statement": "A firmware update is forbidden exactly if it was forbidden before or if some device interface that is locked or running was locked with the flag that forbids updates; an earlier verdict is never changed.", "quantifier": "every number of interfaces and every state and context of each", "why_tests_cant": "The verdict must be right for every combination of interface states and failures.", "anchors": ["core/pcisig/tdisp/firmware_update_observer_tdisp.c: firmware_update_observer_tdisp_on_prepare_update"]}
{"id": "C103", "title": "Link encryption keys reach the driver exactly as sent and do not stay in memory", "statement": "Every secured key management request gets exactly the specified answer: a query lists the registers and all stream blocks that the capability register announces, in order, or tells the first problem; a key is given to the driver exactly for a complete request, with port, stream, key set, direction, sub stream, key and IV as sent, and is erased from the message; go and stop reach the driver exactly for requests of the right size. Unsecured requests change nothing. No access leaves the buffer.", "quantifier": "every request, every register content and every driver failure", "why_tests_cant": "The number and sizes of blocks depend on registers; all combinations must fit the buffer.", "anchors": ["core/pcisig/ide/ide_commands.c", "core/pcisig/ide/cmd_interface_ide_responder.c: cmd_interface_ide_responder_process_request"]}
{"id": "C104", "title": "Data objects are framed exactly and discovery finds every protocol", "statement": "Every received data object is either refused with the specified error or answered by the addressed protocol, with the whole of its data, marked as secured exactly if it came as secured object; the answer has the type of the request and announces its own size. Discovery, started at entry 0 and following the answers, yields exactly the table of protocols. Nothing is sent for refused messages. No access leaves the buffer. What is sent contains nothing but the answer.", "quantifier": "every message, buffer size, table and responder", "why_tests_cant": "Lengths range up to a megabyte with a special case at the end.", "anchors": ["core/pcisig/doe/doe_interface.c", "core/pcisig/doe/doe_cmd_channel.c: doe_cmd_channel_receive_and_process"]}
{"id": "C105", "title": "Every SPDM transcript digest covers exactly the messages of its context", "statement": "In every history of operations, with every pattern of hash engine failures, a digest given out for a context (certificate, measurement, session measurement or session handshake transcript) is that of exactly the messages recorded for this context since it was begun, in order, preceded by the negotiation messages as they were at that time; contexts do not influence each other; a finished or reset context starts anew; all results are as specified. An update that failed is never silently missing from a later digest. No access leaves the arrays.", "quantifier": "every number of engines and sessions, every history of operations and every pattern of failures", "why_tests_cant": "Contexts and engines are shared over arbitrary interleavings; a mix-up shows only in particular histories.", "anchors": ["core/spdm/spdm_transcript_manager.c: spdm_transcript_manager_update, spdm_transcript_manager_get_hash, spdm_transcript_manager_reset"]}
{"id": "C106", "title": "Secured SPDM messages are accepted only if sealed by the peer of their session, and sealed answers are exact", "statement": "A secured request is accepted only if the session it names exists with keys, and the message opens under this session's current request key, the IV of the next sequence number and its own header; then exactly the data inside is handed on. A request sealed by the peer with the next number is always accepted. An answer leaves sealed for the same session under the current response key and next number, as the peer expects it. No other session is touched, sessions come only by creation with an unused non-zero identifier and a free place, and go only by release, and the counter of sessions is exact. No access leaves the message buffer.", "quantifier": "every table of sessions, every message, every AEAD that opens what it sealed, every failure of the engine", "why_tests_cant": "Lengths, offsets, identifiers and sequence numbers are attacker controlled and interact; tests use a few well formed messages.", "anchors": ["core/spdm/spdm_secure_session_manager.c: spdm_secure_session_manager_decode_secure_message, spdm_secure_session_manager_encode_secure_message, spdm_secure_session_manager_create_session, spdm_secure_session_manager_release_session"]}
{"id": "C107", "title": "SPDM sessions: no key is used twice with one IV, and requests are served only in proved sessions", "statement": "In every history of requests, plain or secured, well formed or not, with every pattern of failures: no key is used twice with the same IV by the AEAD engine, to seal answers or to open requests, and only with keys that a key exchange made; a session begins with a key exchange under an identifier not in use, a request is served in a session, and a session ended, only behind the key exchange and a verified FINISH of this very session since it began, and only if the request came sealed for this session; a version request drops all sessions.", "quantifier": "every number of session places, every history of requests, every state of the connection, every failure of the engine and the key derivation; keys of the derivation are assumed distinct and not zero", "why_tests_cant": "A repeated IV or a session that is served before FINISH shows only in particular orders of requests and failures.", "anchors": ["core/spdm/cmd_interface_spdm_responder.c: cmd_interface_spdm_process_request", "core/spdm/spdm_commands.c: spdm_key_exchange, spdm_finish, spdm_end_session, spdm_vendor_defined_request, spdm_get_measurements, spdm_get_version", "core/spdm/spdm_secure_session_manager.c"]}
{"id": "C108", "title": "Firmware images: what a verified load leaves in memory is what was signed", "statement": "When loading with verification of a firmware component (to a buffer or, through a loader that may decrypt, to physical memory) or of an application image succeeds, then exactly the bytes now in memory, behind the header of the component and what is in front of it, are what the signature was checked against, with the algorithm, the version and the length of the header; the digest given back is of the same bytes; nothing behind the image in the buffer is changed. This is so even if the contents of the flash change at any moment during the call and whatever calls fail.", "quantifier": "every component that was set up, every buffer, every header and version given, every sequence of flash contents and failures", "why_tests_cant": "A second read of the flash between check and use is invisible to tests on a flash that does not change.", "anchors": ["core/firmware/firmware_component.c: firmware_component_init, firmware_component_load_and_verify_with_header, firmware_component_load_to_memory_and_verify_with_header", "core/firmware/app_image.c: app_image_load_and_verify_with_header", "core/crypto/signature_verification.c: signature_verification_verify_hash_and_finish_save_digest"]}
{"id": "C109", "title": "Firmware images: the verdict about a component is exact", "statement": "On a flash that does not change and without failures, the verification of a component in place succeeds exactly if the version is the one wanted, the hash algorithm is known, built in and its digest fits, the signature is not empty and not too long and is a signature of all bytes from the start of the component to the end of the image; loading with verification accepts exactly the same components, if the image fits the buffer, with the same digest.", "quantifier": "every component below the end of the address space, every contents of flash, every version and buffer size", "why_tests_cant": "Exactness quantifies over all flash contents and lengths.", "anchors": ["core/firmware/firmware_component.c: firmware_component_verification, firmware_component_load_and_verify", "core/flash/flash_util.c: flash_contents_verification"]}
{"id": "C110", "title": "Firmware images: nothing is left behind or accessed out of bounds by loading and verification", "statement": "Whatever the flash contains, however it changes and whichever call fails: after loading, verifying, hashing or reading the signature of a component or an application image the hash engine is not active and no memory is lost, and no byte outside of the header, the signature buffer or the buffer of the image is accessed; a set up that fails loses nothing; each field of the header of a firmware image is read inside of it, and refused for formats that do not have it.", "quantifier": "every call, every header accepted by set up, every sequence of flash contents and failures", "why_tests_cant": "A hash left active blocks the engine for good; it takes a failure at one particular step.", "anchors": ["core/firmware/firmware_component.c", "core/firmware/app_image.c", "core/firmware/firmware_header.c", "core/common/image_header.c"]}
{"id": "C111", "title": "Firmware images: copies of components are exact", "statement": "A copy of a component to another flash that is reported as done, forced or only if different, has put exactly the image at the destination; bytes outside of the erase blocks of the destination are never changed; a forced copy leaves the rest of the destination erased; an image larger than the destination is refused before anything is erased.", "quantifier": "every component, every destination, every contents of both devices, every pattern of failing and short operations of the destination", "why_tests_cant": "Failures in the middle of erase and programming are not enumerable in tests.", "anchors": ["core/firmware/firmware_component.c: firmware_component_copy, firmware_component_compare_and_copy", "core/flash/flash_util.c"]}
{"id": "C112", "title": "Device identity certificates: only a verified chain gets into use, and it stays the stored one", "statement": "At every moment the device identity certificate in use is the one of the boot or one for which the X.509 engine accepted a chain to a root CA together with the alias certificate; when no verification runs, a root CA that is shown belongs to an accepted chain with exactly the device identity and intermediate CA in use; a certificate in use is not replaced while a task holds the keys; once a chain is in use or under verification imports are refused, so that every certificate still in the key store is the one in use.", "quantifier": "every interleaving of the command task and the background task, every sequence of imports, erasures and verifications, every failure of the key store and of the engine, every contents of the key store at boot", "why_tests_cant": "The checks and the stores are in different tasks; only particular interleavings show a difference.", "anchors": ["core/riot/riot_key_manager.c: riot_key_manager_authenticate_stored_certificates, riot_key_manager_store_certificate, riot_key_manager_erase_all_certificates, riot_key_manager_get_riot_keys, riot_key_manager_get_root_ca", "core/cmd_interface/cmd_background_handler.c: cmd_background_handler_execute"]}
{"id": "C113", "title": "Device identity certificates: memory of certificates is neither lost nor used after release", "statement": "In every interleaving the key manager releases no certificate twice, uses none after its release, and its pointers are to different live blocks; every certificate read from the key store is in use or was released; releasing the manager releases everything.", "quantifier": "every interleaving of both tasks and every failure", "why_tests_cant": "A leak or a double release needs one failure at one step of a verification that followed others.", "anchors": ["core/riot/riot_key_manager.c: riot_key_manager_authenticate_stored_certificates, riot_key_manager_release"]}
{"id": "C114", "title": "OCP recovery: capabilities and registers read back are truthful", "statement": "The answer about capabilities announces exactly the commands and features the device supports, with the number of regions; after an accepted reset or recovery control command, reading it back gives what was written with the trigger (reset, activation) cleared.", "quantifier": "every configuration of the device, every accepted command in every state", "why_tests_cant": "All combinations of optional features and states.", "anchors": ["core/recovery/ocp_recovery_device.c: ocp_recovery_device_read_prot_cap, ocp_recovery_device_write_reset, ocp_recovery_device_write_recovery_ctrl, ocp_recovery_device_read_request"]}
{"id": "C115", "title": "Attestation: digests and certificates of a slot are those of one chain", "statement": "Digests are given exactly for a slot whose certificates are there and with room for all, and they are those of root CA, intermediate CA, device identity and leaf certificate in this order; reading certificate n of the slot gives exactly the certificate whose digest is digest n, and nothing beyond the last one.", "quantifier": "every set of certificates the device can hold, every slot, certificate number, buffer size and failing hash", "why_tests_cant": "All combinations of optional certificates, slots and numbers.", "anchors": ["core/attestation/attestation_responder.c: attestation_responder_get_digests, attestation_responder_get_certificate"]}
{"id": "C116", "title": "Attestation: the answer to a challenge is bound to the challenge, the nonce and the measurement", "statement": "When a challenge is answered, the response holds the protocol versions, the fresh nonce and the value of PCR 0, followed by a signature of the alias key over exactly the received challenge followed by exactly this response, and the length is that of both; whatever step fails, no hash stays active, no lock stays held and nothing is written behind the buffer.", "quantifier": "every challenge, buffer size, measurement, nonce and failing step", "why_tests_cant": "The failing step and the sizes are arbitrary.", "anchors": ["core/attestation/attestation_responder.c: attestation_responder_challenge_response", "core/crypto/ecdsa.c: ecdsa_sign_hash_and_finish"]}
{"id": "C117", "title": "Attestation: concurrent requests do not block each other for good", "statement": "In every interleaving of tasks that read digests, read certificates and answer challenges, some task can always go on until all are done.", "quantifier": "every number of tasks, every sequence of requests of each, every schedule", "why_tests_cant": "Deadlocks need a particular interleaving.", "anchors": ["core/attestation/attestation_responder.c: attestation_responder_get_digests, attestation_responder_get_certificate, attestation_responder_challenge_response", "core/riot/riot_key_manager.c: riot_key_manager_get_riot_keys"]}
{"id": "C118", "title": "Unsealing gives a key exactly to an authentic request whose policy fits the measurements", "statement": "A key is given if and only if the request is complete, its seed gives a secret, its HMAC under the signing key derived from the secret authenticates ciphertext and policy, and for every PCR the policy value is all zero or the value of the PCR with zeros in front; the key is the encryption key derived from the same secret.", "quantifier": "every request, every state of the PCRs and every failing step, up to 256 policy values", "why_tests_cant": "The space of requests, policies and measurements is unbounded.", "anchors": ["core/attestation/aux_attestation.c: aux_attestation_unseal, aux_attestation_generate_ecdh_seed, aux_attestation_decrypt"]}
{"id": "C119", "title": "Intrusion: a healthy state is reported only while nothing speaks against it", "statement": "After every history the reported event data says no intrusion if and only if a check, a notification or a permitted reset established this with a successful measurement and no intrusion, failed check or error came since; the PCR measurement always is the one of the event data; the persistent state is set for every handled intrusion, also if the measurement fails, and cleared only while no intrusion is active.", "quantifier": "every history of intrusions, resets, checks, deferred checks and notifications with every combination of failures", "why_tests_cant": "Histories are unbounded and each step can fail in several ways.", "anchors": ["core/intrusion/intrusion_manager.c: intrusion_manager_update_measurement, intrusion_manager_handle_intrusion, intrusion_manager_reset_intrusion, intrusion_manager_update_intrusion_state", "core/intrusion/intrusion_manager_async.c: intrusion_manager_async_on_intrusion, intrusion_manager_async_on_no_intrusion, intrusion_manager_async_on_error"]}
{"id": "C120", "title": "TPM storage: a scheduled clear is carried out, the counter never goes back, segments read back", "statement": "Once a clear was scheduled successfully it stays scheduled through every operation, failure and loss of power until a start has erased every segment; the non-volatile counter is the number of successful increments since the last clear; data stored in a segment is read back and nothing else changes.", "quantifier": "every history of operations, every failing read or write and every point at which the power is lost", "why_tests_cant": "The crash point and the failing access are arbitrary, in histories of any length.", "anchors": ["core/tpm/tpm.c: tpm_init_header, tpm_read_header, tpm_on_soft_reset, tpm_schedule_clear, tpm_increment_counter, tpm_set_storage, tpm_get_storage, tpm_init_state"]}
{"id": "C121", "title": "Event task: every accepted event is executed exactly once, in order and with its data", "statement": "In every interleaving of any number of submitting tasks with the event task, handlers are executed for exactly the accepted events, in the order of acceptance, each once and with the data it was submitted with; an accepted event is never lost; while a handler runs no other task can change its event; before the task is started every event is refused.", "quantifier": "every number of tasks, every sequence of submissions, every schedule", "why_tests_cant": "A loss needs one interleaving of several tasks at the one moment between two statements.", "anchors": ["core/system/event_task.c: event_task_submit_event, event_task_find_handler", "projects/freertos/event_task_freertos.c: event_task_freertos_get_event_context, event_task_freertos_notify, event_task_freertos_process_notification, event_task_freertos_start"]}
{"id": "C122", "title": "Impactful updates: only harmless or authorized updates are allowed, and authorizations end", "statement": "An update is allowed if and only if every check finds it harmless or can be overruled and found an authorization; updates are authorized exactly if an authorization was given and not reset since; an authorization with a time limit always has its end under way, in every interleaving of authorizations, resets and expirations; and these calls never block each other for good.", "quantifier": "every list of checks, every interleaving of calls and timer", "why_tests_cant": "Timer and calls interleave arbitrarily.", "anchors": ["core/firmware/impactful_update.c: impactful_update_is_update_not_impactful, impactful_update_is_update_allowed, impactful_update_authorize_update, impactful_update_reset_authorization, impactful_update_expired_authorization", "projects/freertos/platform.c: platform_timer_notification, platform_timer_arm_one_shot, platform_timer_disarm"]}
{"id": "C123", "title": "Attestation: a measurement is accepted exactly if it satisfies the rules of the CFM", "statement": "A digest is accepted exactly if it is in a list of the device's version set; data are accepted exactly if, read as numbers in the given byte order and under the given mask, they stand in the asked relation to the allowed values - to one of them for equality, to all of them otherwise - in every check of the device's version set; the version set is fixed by the first measurement that selects one and never changed.", "quantifier": "every measurement, every list of checks, masks, byte orders and version sets", "why_tests_cant": "Values, masks and lists of rules are unbounded, and a wrong acceptance needs one particular combination.", "anchors": ["core/attestation/attestation_requester.c: attestation_requester_verify_digest_in_allowable_list, attestation_requester_compare_data, attestation_requester_verify_data_in_allowable_list, attestation_requester_verify_digest_measurement_block, attestation_requester_verify_data_measurement_block"]}
{"id": "C124", "title": "Attestation: signatures are checked with keys from trusted certificate chains only", "statement": "After any history of attestations, the public key the requester holds for a device is that of the last certificate of a chain in which every certificate was verified against the one before and every issuer is a CA, and which starts from a root that is trusted by the rules of the component: the root in its CFM list, else the requester's own root. The chain digest held with the key is the digest of exactly that chain.", "quantifier": "every history of attestations of any devices with any CFM rules; all responder messages, transport failures, engine failures, certificate contents", "why_tests_cant": "A key that is accepted wrongly needs a particular sequence of messages and failures over several attestations; the messages are chosen by the device under attestation.", "anchors": ["core/attestation/attestation_requester.c: attestation_requester_verify_and_load_root_cert, attestation_requester_verify_and_load_certificate, attestation_requester_update_alias_key, attestation_requester_verify_and_load_leaf_key_spdm", "core/cmd_interface/device_manager.c: device_manager_update_cert_chain_digest, device_manager_update_alias_key"]}
{"id": "C125", "title": "Attestation: a device is accepted only on evidence", "statement": "If attesting a device over SPDM succeeds, each rule of a component of the device is met by a value the device sent; each such value comes with a signature by the key held for the device over a transcript that ends with the requester's own request, with the nonce drawn just before, and the response with the value. Only for devices that say that they have no certificates are values taken unsigned, and these devices are not called AUTHENTICATED.", "quantifier": "all responder messages, all CFM rules, all failures, all versions of SPDM from 1.0 to 1.2", "why_tests_cant": "The device under attestation chooses all messages; replay, truncation and downgrade need adversarial message sequences.", "anchors": ["core/attestation/attestation_requester.c: attestation_requester_attest_device, attestation_requester_attest_device_by_component_id, attestation_requester_attest_device_spdm, attestation_requester_send_and_receive_spdm_get_measurements, attestation_requester_spdm_process_get_measurements_response, attestation_requester_verify_signature, attestation_requester_get_and_verify_cfm_contents"]}
{"id": "C126", "title": "Attestation: failures never lead to acceptance", "statement": "If an attestation fails at any point, the device is not in an accepted state afterwards and no success is counted; an attestation changes nothing for other devices; devices excluded from attestation stay excluded.", "quantifier": "all points and kinds of failure, all messages, all states before", "why_tests_cant": "The failure points are all engine calls, transport calls and checks on a path of unbounded length.", "anchors": ["core/attestation/attestation_requester.c: attestation_requester_attest_device, attestation_requester_attest_device_by_component_id", "core/cmd_interface/device_manager.c: device_manager_update_device_state_by_eid, device_manager_update_attestation_summary_event_counters_by_eid"]}
{"id": "C127", "title": "SHA-256 of the RIoT code is SHA-256", "statement": "Initialising, any sequence of updates with data of any lengths, and finalising gives the SHA-256 digest (FIPS 180-4) of the concatenated data; the split into calls does not matter.", "quantifier": "every message and every split of it into calls", "why_tests_cant": "Padding and buffering have different cases for every length modulo 64 and every split; vectors cover few of them, and the compression works on a buffer that aliases its input.", "anchors": ["core/riot/reference/RiotSha256.c: RIOT_SHA256_Init, SHA256_Transform, RIOT_SHA256_Update, RIOT_SHA256_Final, RIOT_SHA256_Block_ctx, RIOT_SHA256_Block"]}
{"id": "C128", "title": "HMAC and key derivation of the RIoT code follow their standards", "statement": "The HMAC functions compute HMAC-SHA-256 (RFC 2104) for every key and every split of the message; the key derivation computes one block of counter mode (SP 800-108) with counter and length as 32 bit big-endian numbers.", "quantifier": "every key, message, split, counter, label and context", "why_tests_cant": "Keys longer than a block, unusual splits and the byte order of numbers are not visible in a test that compares the code with itself.", "anchors": ["core/riot/reference/RiotHmac.c: RIOT_HMAC_SHA256_Init, RIOT_HMAC_SHA256_Update, RIOT_HMAC_SHA256_Final", "core/riot/reference/RiotKdf.c: RIOT_KDF_FIXED, RIOT_KDF_SHA256"]}
{"id": "C129", "title": "The DER builder produces the DER encoding, inside its buffer", "statement": "Any sequence of builder calls that describes a nested document, if it succeeds, leaves exactly the DER encoding (X.690) of that document in the buffer; with enough space it succeeds, and without enough space it reports an error and writes nothing outside the buffer.", "quantifier": "every nested document, every value in it and every buffer size", "why_tests_cant": "Lengths are inserted when a collection is closed and shift what has been written; the form of a length changes at 128 and 256 bytes at every level, and the checks for space matter only for buffers that are almost full.", "anchors": ["core/riot/reference/RiotDerEnc.c: DERInitContext, DERAddOID, DERAddEncodedOID, DERAddUTF8String, DERAddTime, DERAddIntegerFromArray, DERAddTaggedIntegerFromArray, DERAddTaggedInteger, DERAddInteger, DERAddShortExplicitInteger, DERAddBoolean, DERAddNamedBitString, DERAddBitString, DERAddOctetString, DERAddAuthKeyBitString, DERStartSequenceOrSet, DERStartConstructed, DERStartExplicit, DERStartEnvelopingOctetString, DERStartEnvelopingBitString, DERPopNesting, DERTbsToCert, DERAddNull, DERAddDER"]}
{"id": "C130", "title": "The DER decoder reads only the encoding and finds the right field", "statement": "For any bytes at all, extracting the subject name, the public key or the private key reads only inside the given bytes and gives a range inside them; for a well-formed certificate the subject common name, and for a well-formed public key the key, is what is returned.", "quantifier": "every byte string as certificate or key, and every well-formed certificate", "why_tests_cant": "Certificates come from outside; the arithmetic on lengths wraps only for lengths no test uses.", "anchors": ["core/riot/reference/RiotDerDec.c: DERDECReadLength, DERDECVerifyCert, DERDECGetSubjectName, DERDECGetPubKey, DERDECGetPrivKey, DERDECGetPubKeyFromPrivKey"]}
{"id": "C131", "title": "Issued certificates say what was asked for, are signed over exactly that, and chain to their issuer", "statement": "A self-signed certificate, a certificate issued under a CA, or a signing request that is created is the X.509 structure with the given serial number, names, role, key and extensions, with a signature by the right key over exactly the to-be-signed part. The issuer and authority key identifier of an issued certificate are the subject and subject key identifier of the CA certificate. Creation succeeds when everything fits, fails without writing outside memory when it does not, and releases everything on failure.", "quantifier": "every key, serial number, name, role, list of extensions, CA certificate, buffer size and engine behaviour", "why_tests_cant": "Tests compare a few certificates byte by byte; lengths of 128 and 256 bytes at any level, extensions that fill the buffer, and CA names of all lengths are out of reach.", "anchors": ["core/asn1/x509_cert_build.c: x509_cert_build_create_csr, x509_cert_build_create_self_signed_certificate, x509_cert_build_create_ca_signed_certificate, x509_cert_build_sign_certificate, x509_cert_build_build_certificate_tbs_data, x509_cert_build_build_csr_tbs_data, x509_cert_build_add_custom_extension"]}
{"id": "C132", "title": "Certificate extensions encode what they were given", "statement": "An extended key usage, unique device identifier, TCB information or DME extension that is built holds exactly the DER encoding of the given values, with the right OID; with a buffer the builder allocates itself it is always built if the mandatory values are there, and never without them.", "quantifier": "every set of values, with any number of purposes, digests, registers and any subset of the optional parts, and every buffer size", "why_tests_cant": "The size to allocate is estimated; some headers are not counted and must be covered by what other parts count too much, which depends on every length at once.", "anchors": ["core/asn1/x509_extension_builder_eku.c: x509_extension_builder_eku_create_extension, x509_extension_builder_eku_build_dynamic, x509_extension_builder_eku_get_ext_buffer_length", "core/asn1/dice/x509_extension_builder_dice_ueid.c: x509_extension_builder_dice_ueid_create_extension, x509_extension_builder_dice_ueid_build_dynamic, x509_extension_builder_dice_ueid_build_static", "core/asn1/dice/x509_extension_builder_dice_tcbinfo.c: x509_extension_builder_dice_tcbinfo_create_extension, x509_extension_builder_dice_tcbinfo_build_dynamic, x509_extension_builder_dice_tcbinfo_get_ext_buffer_length", "core/asn1/dme/x509_extension_builder_dme.c: x509_extension_builder_dme_create_extension, x509_extension_builder_dme_build_dynamic"]}
{"id": "C133", "title": "Device identity and alias certificates follow from the CDI and form a chain", "statement": "A Device ID certificate that is handed out is self-signed, and its key, name and serial number are the ones derived from the CDI alone. Whenever an alias certificate is handed out, the Device ID certificate and the alias private key are too; the alias key is derived from CDI and firmware identifier, the certificate is for exactly that private key, is signed with the key of the Device ID certificate and names it as issuer. No getter reads a certificate that is not there, and no secret stays behind in memory.", "quantifier": "every CDI and firmware identifier, all three key lengths, every sequence of generations with any failure of any engine call at any point", "why_tests_cant": "Key, encoding, certificate and flag are updated one after the other; whether they still belong together after a failure depends on which call fails and what was generated before.", "anchors": ["core/riot/riot_core_common.c: riot_core_common_generate_device_id, riot_core_common_create_device_id_certificate, riot_core_common_generate_alias_key, riot_core_common_get_device_id_cert, riot_core_common_get_alias_key, riot_core_common_get_alias_key_cert, riot_core_common_release, riot_core_common_init_state", "core/riot/riot_core.c: RIOT_CORE_SERIAL_NUM_KDF_DATA"]}
{"id": "C134", "title": "Firmware verified against a PFM, and measured as verified", "statement": "Verification with a PFM succeeds only if the PFM itself verifies, carries the expected identifier, describes exactly one component with exactly one version, and every image that is always to be checked matches it in flash; such firmware is accepted if nothing fails. If all measurements of a run are recorded, then the PCR entries replay from what the attestation log reads: the status, and version, digest, identifier and platform of the PFM after a success, or empty values after a failure. Flash is not changed.", "quantifier": "every PFM, flash contents, expected identifier, hash, measurement types, any failure of each call, every earlier state, every offset and length of a log read", "why_tests_cant": "What the log reads is computed from the state, what the PCR holds was recorded at another time; whether they agree depends on the history of runs and failures.", "anchors": ["core/firmware/firmware_pfm_verify.c: firmware_pfm_verify_run_verification, firmware_pfm_verify_init_state, firmware_pfm_verify_get_fw_version_measured_data, firmware_pfm_verify_hash_fw_version_measured_data, firmware_pfm_verify_get_pfm_digest_measured_data, firmware_pfm_verify_get_pfm_id_measured_data, firmware_pfm_verify_get_pfm_platform_id_measured_data", "core/manifest/manifest_pcr.c: manifest_pcr_measure_manifest", "core/manifest/manifest_manager.c: manifest_manager_get_manifest_digest_measured_data, manifest_manager_get_id_measured_data, manifest_manager_get_platform_id_measured_data"]}
{"id": "C135", "title": "SPDM measurement blocks are the measurements", "statement": "A measurement block returned for index k is the block of the k-th measurement of the device, with its DMTF type and its measured data (never a digest if raw data were asked for) or its digest; reserved indices and indices beyond the count are refused. The record of all blocks holds one block for each measurement in order, fits the buffer, and decodes to exactly these; the lengths announced are the ones needed. The summary hash is the hash of the digest blocks, of the TCB only if asked for. With discovery the device ID, which lists the four PCI identifiers, is one more block with index 0xef.", "quantifier": "every PCR store, measured data of any source, hash algorithm, index, buffer length, any failure of reads and hashes, with and without the device ID", "why_tests_cant": "Length query and read are separate walks over all PCRs and data sources, and the requester decodes a concatenation of variable-length blocks.", "anchors": ["core/spdm/spdm_measurements.c: spdm_measurements_get_measurement_count, spdm_measurements_get_measurement_block, spdm_measurements_get_measurement_block_length, spdm_measurements_get_all_measurement_blocks, spdm_measurements_get_all_measurement_blocks_length, spdm_measurements_get_measurement_summary_hash", "core/spdm/spdm_measurements_discovery.c: spdm_measurements_discovery_get_measurement_block, spdm_measurements_discovery_get_measurement_block_length, spdm_measurements_discovery_get_all_measurement_blocks, spdm_measurements_discovery_get_all_measurement_blocks_length, spdm_measurements_discovery_get_measurement_summary_hash", "core/spdm/spdm_discovery.c: spdm_discovery_device_id_init"]}
{"id": "C136", "title": "The SPDM certificate chain and its digest agree", "statement": "A requester that reads a certificate slot in portions of any sizes gets exactly the certificate chain (length, hash of the top certificate, certificates in order), after at most as many requests as it has bytes; the digest announced for the slot is the hash of these same bytes. Every response fits the message, states correctly how much remains, and is added with its request to the transcript outside of sessions. Requests in the wrong state, of another version, or for other slots get an error and change no transcript.", "quantifier": "every chain, hash algorithm, slot, sequence of portion sizes, message size, connection state and failure of hash or transcript", "why_tests_cant": "Portions and hashes are assembled by separate walks over four certificates, with 16-bit lengths and offsets; tests use a few fixed portions.", "anchors": ["core/spdm/spdm_certificate_chain_dice.c: spdm_certificate_chain_dice_get_digest, spdm_certificate_chain_dice_get_certificate_chain", "core/spdm/spdm_commands.c: spdm_get_digests, spdm_get_certificate, spdm_reset_transcript_via_request_code"]}
{"id": "C137", "title": "Register field accesses touch exactly the field", "statement": "Reading a field of a memory-mapped register returns exactly its bits, and writing, setting or clearing it changes exactly these bits of this register: after any sequence of requests, some failing or refused, every bit of the block is what the writes that were carried out made it. Fields that do not fit the register, offsets outside of the block and failed accesses are refused without a change. Accesses by physical address are those at the offset of the address, and addresses outside of the block are refused. Block copies read and write exactly the consecutive registers.", "quantifier": "every block of registers, contents, field position and width, value, address, failure and sequence of requests", "why_tests_cant": "Masks and shifts have corner cases for every position and width, and a wrong neighbouring bit shows only with particular register contents.", "anchors": ["core/mmio/mmio_register_block.c: mmio_register_block_read_bits, mmio_register_block_write_bits, mmio_register_block_read_bit, mmio_register_block_write_bit, mmio_register_block_set_bit, mmio_register_block_clear_bit, mmio_register_block_read_bits_by_addr, mmio_register_block_write_bits_by_addr", "core/mmio/mmio_util.c: mmio_register_block_read32, mmio_register_block_write32"]}
{"id": "C138", "title": "SPDM negotiation agrees on what both sides support", "statement": "When the responder answers a NEGOTIATE_ALGORITHMS request, the request was a complete one for this connection with tables of rising types and at most 20 extended algorithms; for each kind of algorithm the response has the responder's first preference that both sides support, or nothing if there is none; these are the algorithms the connection uses afterwards, and the transcript has exactly the request and the response. Every such request is answered. GET_CAPABILITIES is answered exactly for requests with a supported version, consistent flags and valid sizes, and the connection has exactly what the requester sent. No request is read or answered outside of the message buffer.", "quantifier": "every request and buffer, responder configuration and preferences, state of the connection and failure of the transcript", "why_tests_cant": "The tables have variable lengths that the requester chooses, and the choice depends on all combinations of both sides' algorithms; tests use a few well-formed requests.", "anchors": ["core/spdm/spdm_commands.c: spdm_negotiate_algorithms, spdm_negotiate_algorithms_construct_response, spdm_prioritize_algorithm, spdm_get_capabilities, spdm_check_request_flag_compatibility", "core/spdm/spdm_commands.h: spdm_negotiate_algorithms_actual_extended_algo_size"]}
{"id": "C139", "title": "Devices are attested in turn, at their cadence, and reported as they are", "statement": "The device chosen for the next attestation can be attested and is due, and none is chosen only if none is due. Devices are taken in turn: whatever happens to the others, a device that stays due is chosen within as many choices as there are devices. A device is left alone for the period that belongs to its last result, and a device that is not attestable is never chosen and stays so through any history. The time to the next action never oversleeps a due device. The attestation status lists exactly the components with the number and the states of their devices, within its buffer.", "quantifier": "every device table, time, history of state changes, discovery restarts and choices, and failure of the timers", "why_tests_cant": "The fairness and the cadence are statements about unbounded histories in which states and timers of all devices change; tests make a few calls on small tables.", "anchors": ["core/cmd_interface/device_manager.c: device_manager_get_device_num_of_next_device_to_attest, device_manager_update_device_state, device_manager_get_time_till_next_action, device_manager_get_attestation_status, device_manager_init, device_manager_restart_device_discovery"]}
{"id": "C140", "title": "Every device listed by the MCTP bridge is discovered", "statement": "Reading the routing table of the MCTP bridge makes exactly the listed devices candidates for discovery, each as often as it is listed. A candidate that is offered is new or its last failure is long enough ago, and none is offered only if all have to wait. A round of discovery tries every new candidate exactly once, whatever the devices answer. Taking a device off the list or delaying it affects exactly that device and never refers to freed memory.", "quantifier": "every routing table and bridge, list of candidates, time, answer of the devices, and failure of memory or timers", "why_tests_cant": "Routing tables have any number of parts, ranges and repetitions and come from another device; the list is circular and changes with every answer; tests use short lists.", "anchors": ["core/cmd_interface/device_manager.c: device_manager_add_unidentified_device, device_manager_remove_unidentified_device, device_manager_unidentified_device_timed_out, device_manager_get_eid_of_next_device_to_discover, device_manager_find_unidentified_device, device_manager_is_device_unattestable", "core/attestation/attestation_requester.c: attestation_requester_get_mctp_routing_table, attestation_requester_discover_device, attestation_requester_discovery_and_attestation_loop"]}
{"id": "C141", "title": "MCTP control requests are answered exactly, and only Set EID changes the endpoint", "statement": "Each well-formed MCTP control request (Set and Get Endpoint ID, version, message types, vendor support) is answered with the response that the MCTP specification defines, with the instance ID of the request. A request with a wrong length, a bad parameter or an unknown command is answered with the completion code for it and changes nothing. Only a Set EID with an assignable EID changes the device table, and then the own EID and the bridge entry; after any history of requests the own EID is the one assigned last. Nothing is read or written outside of the message buffer. A routing table response is understood as what it says.", "quantifier": "every message, buffer contents behind it, device table, sender, and history of requests; every routing table response", "why_tests_cant": "The response is written over the request, so that its bytes depend on stale buffer contents; histories and messages are unbounded; tests use a few.", "anchors": ["core/mctp/cmd_interface_mctp_control.c: cmd_interface_mctp_control_process_request", "core/mctp/mctp_control_protocol_commands.c: mctp_control_protocol_set_eid, mctp_control_protocol_get_eid, mctp_control_protocol_get_mctp_version_support, mctp_control_protocol_get_message_type_support, mctp_control_protocol_get_vendor_def_msg_support, mctp_control_protocol_process_get_routing_table_entries_response", "core/cmd_interface/device_manager.c: device_manager_update_device_eid, device_manager_update_not_attestable_device_entry"]}
{"id": "C142", "title": "What is read from a component firmware manifest is what it says", "statement": "For a well-formed component of a CFM the interface reports exactly its contents: its fields and PMR IDs, the initial value and the allowed digests of each PMR, the root CA digests, all measurements (digests, data checks with masks and values, aggregated measurements) and all allowed manifests, in order, whatever was in memory before. Nothing is reported for a component that is not there, and no measurement is invented, repeated or changed. A list of components is the requested part of all component IDs.", "quantifier": "every manifest, component in it, contents of every list, requested offset and length, and contents of memory before", "why_tests_cant": "Manifests have any number of elements of any size, and iterations depend on where each element is; tests use a few fixed manifests.", "anchors": ["core/manifest/cfm/cfm_flash.c: cfm_flash_get_component_device, cfm_flash_buffer_supported_components, cfm_flash_get_component_pmr, cfm_flash_get_component_pmr_digest, cfm_flash_get_root_ca_digest, cfm_flash_get_next_measurement_or_measurement_data, cfm_flash_get_next_manifest", "core/manifest/cfm/cfm_format.h", "core/manifest/manifest_flash.c: manifest_flash_read_element_data, manifest_flash_get_child_elements_info"]}
{"id": "C143", "title": "What is read from the platform configuration data is what it says", "statement": "The configuration of the RoT, of its ports and of the power controller that the interface reports are those of the PCD, with the defaults where an old format has no values. Asking for one component after another gives each component of the PCD once, in order, with its ID, number of devices, allowed types and connection, and then the end. The list of components is the requested part of all IDs and device counts. Whatever a PCD contains, no memory outside of its elements is used. A component for which there was no memory is not lost, and a failed first call leaves nothing to free.", "quantifier": "every PCD, contents and order of its elements, requested port, offset and length, failures of allocations, and contents of memory before", "why_tests_cant": "Elements have any number, order, length and format version; tests use a few fixed PCDs and single allocation failures.", "anchors": ["core/manifest/pcd/pcd_flash.c: pcd_flash_get_rot_info, pcd_flash_get_port_info, pcd_flash_get_power_controller_info, pcd_flash_buffer_supported_components, pcd_flash_get_next_component", "core/manifest/pcd/pcd_format.h", "core/manifest/pcd/pcd.h: get_next_component", "core/manifest/manifest_flash.c: manifest_flash_read_element_data_multi_type"]}
{"id": "C144", "title": "The symmetric encryption of the RIoT library is AES-128 in counter mode", "statement": "Encrypting a block with a key is AES-128 as FIPS 197 defines it. Symmetric encryption is the counter mode of SP 800-38A with a big-endian counter of 32 bits in the last bytes of the IV: each byte of data is combined with the key stream, whatever the length, and the IV afterwards is the next counter, so that no block of the key stream is used twice by calls in a row. Encrypting the result again with the same key and IV gives the data back. An output buffer that is too small is refused.", "quantifier": "every key, IV, counter (also when it overflows) and data of every length", "why_tests_cant": "2^128 keys and blocks, tables of 256 words and all lengths and counters; tests check a few vectors.", "anchors": ["core/riot/reference/RiotAes128.c: RIOT_AES128_Enable, RIOT_AES_CTR_128, RIOT_AES_ECB_128_ENCRYPT, EncryptRounds", "core/riot/reference/RiotAesTables.c: sbox, ftable, Rconst", "core/riot/reference/RiotCrypt.c: RiotCrypt_SymEncryptDecrypt"]}
{"id": "C145", "title": "At power-on a host is booted by the most secure means that works", "statement": "At power-on the host firmware is validated first; then a rollback, then the recovery image and only then a boot without validation are tried, each at most twice, and the last only if the caller allows it. Nothing is tried after a success, something less secure only after all attempts of what is more secure failed or the host says that they are impossible, and failure is reported only if nothing is left to try. The flash devices are swapped for a boot without validation at most once, and only if writing the recovery image to the read-only flash was tried and failed. Forced recovery is repeated until it succeeds or the host says that it has no recovery.", "quantifier": "every host, with any answers to any sequence of operations, and both settings of the permission", "why_tests_cant": "The answers of a host depend on the history; tests use a few sequences of results of mocks.", "anchors": ["core/host_fw/host_irq_handler.c: host_irq_handler_power_on, host_irq_handler_force_recovery", "core/host_fw/host_irq_handler.h", "core/host_fw/host_processor.h: power_on_reset, flash_rollback, apply_recovery_image, bypass_mode"]}
{"id": "C146", "title": "The Base64 of the RIoT library is that of RFC 4648", "statement": "Encoding gives the Base64 string of the data with its terminator, and the size of it; if the buffer is too small only the size is reported. Decoding the Base64 of any data gives the data. Whatever string is decoded, no more is written than the buffer has room for, and a string that is not Base64 is refused. A successful decoding reports the size of the data.", "quantifier": "all data of every length, every string and every buffer size", "why_tests_cant": "All strings and sizes, with three forms of the last group; tests use a few strings.", "anchors": ["core/riot/reference/RiotBase64.c: Base64Encode, Base64Decode, base64char, base64b16, base64b8, base64toValue, Base64DecodedLength"]}
{"id": "C147", "title": "A flash device kept in RAM is a memory of its size", "statement": "After any history of requests a read returns, for each byte, what was last written there, or 0xff if it was erased since. An erase clears exactly the block of 256 bytes around its address. A request outside the device is refused and changes nothing; no request touches memory outside the buffer. A write and the device size report the right numbers.", "quantifier": "every buffer, every size, every history of reads, writes and erases with any addresses and lengths", "why_tests_cant": "Histories and sizes are unbounded; tests use one buffer and a few requests.", "anchors": ["core/flash/flash_virtual_ram.c: flash_virtual_ram_init, flash_virtual_ram_read, flash_virtual_ram_write, flash_virtual_ram_block_erase, flash_virtual_ram_chip_erase, flash_virtual_ram_get_device_size"]}
{"id": "C148", "title": "Attested measurements follow the active manifest, recovery image and host state", "statement": "When a manifest becomes active or inactive, its three measurements are those of its hash, version and platform identifier, or of the values that stand for no manifest; no manifest and different versions have different identifiers. The measurement of a recovery image is that of its hash. After any history of events the measurement of a host is that of its last event. No other measurement changes, and the three measurements are always those of one manifest.", "quantifier": "every store, every manifest and recovery image, every history of events, every failure of reads and of the hash engine", "why_tests_cant": "Failures at every step combined with all stores and histories; tests use mocks with one failure.", "anchors": ["core/manifest/manifest_pcr.c: manifest_pcr_init, manifest_pcr_measure_manifest", "core/manifest/pfm/pfm_observer_pcr.c: pfm_observer_pcr_on_pfm_activated", "core/recovery/recovery_image_observer_pcr.c: recovery_image_observer_pcr_on_recovery_image_activated", "core/host_fw/host_processor_observer_pcr.c: host_processor_observer_pcr_update, host_processor_observer_pcr_init_state"]}
{"id": "C149", "title": "After a failed self-test nothing is sent until the error state is left", "statement": "When a periodic self-test fails no further test is run, and from then on no packet leaves a guarded channel, until the error state is left. Before, and on other channels, all packets are sent unchanged and with their status. Leaving the error state is all or nothing: if a handler refuses, no channel sends again. This holds however sending and entering are interleaved.", "quantifier": "every history of sends, self-tests, entries and exits, every nesting of groups of handlers, every schedule of a sender and a task that enters the error state", "why_tests_cant": "Histories, groups and schedules are unbounded; tests check one handler and one order of calls.", "anchors": ["core/fips/cmd_channel_error_state.c: cmd_channel_error_state_send_packet, cmd_channel_error_state_enter_error_state", "core/fips/cmd_channel_error_state_with_exit.c: cmd_channel_error_state_with_exit_exit_error_state", "core/fips/error_state_entry_group.c: error_state_entry_group_enter_error_state", "core/fips/error_state_exit_group.c: error_state_exit_group_exit_error_state", "core/fips/periodic_self_test_handler.c: periodic_self_test_handler_execute"]}
{"id": "C150", "title": "ECDSA nonces are those of RFC 6979", "statement": "The candidates for the nonce of a deterministic ECDSA signature are, one after the other, exactly those of RFC 6979 for the private key, the digest and the curve. They depend on nothing else. When the generator cannot be set up nothing of the key stays in it, and a generator that was cleared gives no candidates.", "quantifier": "every key, digest, hash function, curve length, number of candidates asked for, and every pattern of failing hash operations", "why_tests_cant": "A nonce that is wrong for rare inputs or a later candidate gives away the private key; tests check some RFC vectors, mostly with the first candidate.", "anchors": ["core/crypto/ecdsa.c: ecdsa_deterministic_k_drbg_instantiate, ecdsa_deterministic_k_drbg_generate, ecdsa_deterministic_k_drbg_clear"]}
{"id": "C151", "title": "A new key pair is only returned after it passed a consistency test", "statement": "Generating a key pair for key agreement or for signatures succeeds exactly if the engine generated a pair and the pair passed the consistency test for its use on its curve. Otherwise the caller gets no key and nothing of it stays: every key context is released once, and the memory of raw keys is zero. Pairs that belong together always pass if nothing fails.", "quantifier": "every engine and hardware behaviour, including failures of any call, every key, key length, and with and without the public key", "why_tests_cant": "Every combination of failing engine calls must release exactly the right keys; tests check some with mocks.", "anchors": ["core/crypto/ecdh.c: ecdh_generate_random_key, ecdh_pairwise_consistency_test, ecdh_ecc_hw_generate_random_key, ecdh_ecc_hw_pairwise_consistency_test", "core/crypto/ecdsa.c: ecdsa_generate_random_key, ecdsa_pairwise_consistency_test, ecdsa_ecc_hw_generate_random_key, ecdsa_ecc_hw_pairwise_consistency_test"]}
{"id": "C152", "title": "RIoT SHA-1 is SHA-1 for every message, however split into calls", "statement": "The incremental and the one-call SHA-1 of the RIoT reference code give the digest of FIPS 180-4 for every message. The way the message is split into calls and the old content of the context do not matter, no call accesses memory outside of its buffers, and taking the digest clears the context.", "quantifier": "every message, every split into calls, every old content of the context", "why_tests_cant": "Tests compare a few digests; block boundaries, the carry of the bit count and the index arithmetic of long calls need all lengths.", "anchors": ["core/riot/reference/RiotSha1.c: SHA1_Transform, RIOT_SHA1_Init, RIOT_SHA1_Update, RIOT_SHA1_Final, RIOT_SHA1_Block"]}
{"id": "C153", "title": "A host with one filtered flash changes its device only by request, at power-on and at allowed events", "statement": "For a host that uses one of two flash devices, the device in use is the one last asked for. A new next device never changes the current one at once; it is taken at power-on, and at a reset or run-time verification exactly if that event is allowed, and then the flash is verified. A configuration sets exactly what was asked for or changes nothing, and in bypass mode the filter gives the host the current device, or the other one on request.", "quantifier": "every history of configurations, events, power-ons and bypass calls, every stored setting, every failure of the flash access", "why_tests_cant": "The settings interact through a stored selection and a temporary one; the interactions appear only in histories.", "anchors": ["core/host_fw/host_processor_single.c: host_processor_single_config_read_only_flash, host_processor_single_get_flash_config, host_processor_single_bypass_mode, host_processor_single_prepare_verification, host_processor_single_finalize_verification, host_processor_single_full_read_write_flash", "core/host_fw/host_processor_single_full_bypass.c: host_processor_single_full_bypass_enable_bypass_mode"]}
{"id": "C154", "title": "ECC signatures are checked with the key that was set last, or not at all", "statement": "From its initialisation to its release, an ECC signature verification checks every signature with the key that was set last. After a removal or a failed attempt to set a key there is no key, and every signature is refused; a key without bytes is refused and changes nothing. Asking whether a key is valid gives the same answer as setting it and does not change the key in effect. Every key loaded in the engine is released exactly once and none is used after its release.", "quantifier": "every history of setting, removing and checking keys and verifying signatures, every engine and every failure of it at any call", "why_tests_cant": "The key in effect depends on the whole history and on which engine calls failed.", "anchors": ["core/crypto/signature_verification_ecc.c: signature_verification_ecc_verify_signature, signature_verification_ecc_load_key, signature_verification_ecc_set_verification_key, signature_verification_ecc_is_key_valid, signature_verification_ecc_init_state, signature_verification_ecc_release"]}
{"id": "C155", "title": "Ephemeral keys are given out once, and the store of keys is refilled until it is full", "statement": "The keys that the ephemeral key manager gives out, followed by those still stored, are the keys stored at the start followed by the generated keys that were stored since: no key is given out twice, lost or invented, and never more are stored than there is room for. A key is generated exactly if the store works, is prepared and has room. The manager waits before its next execution exactly if there was nothing it could do. If nothing fails, the store is full after one execution for its preparation and one for each missing key.", "quantifier": "every history of executions and key requests, every failure of the generator, of the store and of the timer", "why_tests_cant": "Failures can occur in every step and in every order; that no key is used twice is a claim about whole histories.", "anchors": ["core/keystore/ephemeral_key_manager.c: ephemeral_key_manager_execute, ephemeral_key_manager_get_next_execution, ephemeral_key_manager_schedule_next_execute, ephemeral_key_manager_get_key, ephemeral_key_manager_init"]}
{"id": "C156", "title": "After a firmware update the device resets itself only if the update was applied, is to be executed at once and has no impact", "statement": "With the handler for impactful updates, an update makes the device reset itself exactly if it was applied, was requested to be executed at once, self-reset is built in, and the check says that it has no impact. The status then says success with or without a reset accordingly, and a failed update is never reported as success. No other request causes a reset. An authorization for impactful updates is used up by one applied update.", "quantifier": "every action, every status of the update and every error code, every result of the checks", "why_tests_cant": "The decision combines a status word packed with arbitrary error codes, a build option and results of two handlers.", "anchors": ["core/firmware/firmware_update_handler.c: firmware_update_handler_execute, firmware_update_handler_status_change, firmware_update_handler_set_update_status_with_error", "core/firmware/impactful_update_handler.c: impactful_update_handler_execute"]}
{"id": "C157", "title": "MCTP messages reach the handler registered for their type, and its response gets the header back", "statement": "A received MCTP message goes to the first handler registered for its type and to no other, with its header removed unless it is a vendor message; without such a handler the result says that the type is unknown. A message that is empty, carries an integrity check it must not carry, or leaves no room for a response of 64 bytes reaches no handler and is left as it is. A response within the room the handler was given is sent with the header of the request type in front and fits in the room for responses, 64 bytes with the header for control messages. After a failure the header is given back unchanged.", "quantifier": "every message, every position of the payload in its buffer, every set of handlers, every behaviour of them", "why_tests_cant": "Lengths, offsets and limits change in three layers; only particular sizes show an error.", "anchors": ["core/cmd_interface/cmd_interface_multi_handler.c: cmd_interface_multi_handler_process_request, cmd_interface_multi_handler_find_message_type, cmd_interface_multi_handler_is_message_type_supported", "core/mctp/cmd_interface_protocol_mctp.c: cmd_interface_protocol_mctp_parse_message, cmd_interface_protocol_mctp_handle_request_result, cmd_interface_protocol_mctp_populate_header"]}
{"id": "C158", "title": "A periodic task runs the handler that is due first", "statement": "Each step of a periodic task executes the handler that is due earliest, the first in the list among those due at the same time, after sleeping exactly until it is due. If the time of a handler cannot be determined, nothing is executed and the error of the first such handler is returned. Every handler with a preparation is prepared exactly once, in the order of the list. No handler that is due waits forever.", "quantifier": "every list of handlers with empty entries, every combination of times and clock errors", "why_tests_cant": "The choice depends on the order and the times of all handlers together.", "anchors": ["core/system/periodic_task.c: periodic_task_prepare_handlers, periodic_task_execute_next_handler"]}
