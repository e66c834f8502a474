{"claims": [
 {"property": "C01", "status": "proved", "theorems": ["RustTuf.Props.C01_threshold_sound"], "note": ""},
 {"property": "C02", "status": "proved", "theorems": ["RustTuf.Props.C02_threshold_complete", "RustTuf.Props.C02_leading_junk_harmless", "RustTuf.Props.C02_unauthorised_junk_harmless"], "note": ""},
 {"property": "C03", "status": "proved", "theorems": ["RustTuf.Props.C03_order_independent", "RustTuf.Props.C03_key_order_independent"], "note": ""},
 {"property": "C04", "status": "partial", "theorems": ["RustTuf.Props.C04_same_material_counts_twice", "RustTuf.Props.C04_distinct_material_partial"], "note": "False for the code, which counts key IDs: the counterexample is proved. The partial theorem proves the claim when equal key material implies equal ID."},
 {"property": "C05", "status": "proved", "theorems": ["RustTuf.Props.C05_content_binding"], "note": ""},
 {"property": "C06", "status": "proved", "theorems": ["RustTuf.Props.C06_bootstrap_trusted_keys", "RustTuf.Props.C06_bootstrap_tofu"], "note": ""},
 {"property": "C07", "status": "proved", "theorems": ["RustTuf.Props.C07_root_rule"], "note": ""},
 {"property": "C08", "status": "proved", "theorems": ["RustTuf.Props.C08_root_version_counts", "RustTuf.Props.C08_root_version_bounded"], "note": ""},
 {"property": "C09", "status": "proved", "theorems": ["RustTuf.Props.C09_root_chain", "RustTuf.Props.C09_root_self_signed"], "note": ""},
 {"property": "C10", "status": "proved", "theorems": ["RustTuf.Props.C10_root_forgets", "RustTuf.Props.C10_root_only_by_root"], "note": ""},
 {"property": "C11", "status": "proved", "theorems": ["RustTuf.Props.C11_timestamp_rule", "RustTuf.Props.C11_timestamp_same_version", "RustTuf.Props.C11_timestamp_lower_rejected"], "note": ""},
 {"property": "C12", "status": "proved", "theorems": ["RustTuf.Props.C12_timestamp_no_rollback"], "note": ""},
 {"property": "C13", "status": "proved", "theorems": ["RustTuf.Props.C13_snapshot_rule", "RustTuf.Props.C13_snapshot_post", "RustTuf.Props.C13_snapshot_same_version"], "note": ""},
 {"property": "C14", "status": "proved", "theorems": ["RustTuf.Props.C14_consistent"], "note": ""},
 {"property": "C15", "status": "partial", "theorems": ["RustTuf.Props.C15_snapshot_no_rollback_partial", "RustTuf.Props.C15_direct_replacement_partial", "RustTuf.Props.C15_snapshot_can_roll_back"], "note": "False for the code (a newer timestamp may announce an older snapshot): counterexample proved. Partial: holds if announced versions do not decrease, and every direct replacement goes up."},
 {"property": "C16", "status": "proved", "theorems": ["RustTuf.Props.C16_targets_rule", "RustTuf.Props.C16_targets_same_version"], "note": ""},
 {"property": "C17", "status": "partial", "theorems": ["RustTuf.Props.C17_targets_no_rollback_partial", "RustTuf.Props.C17_delegated_no_rollback_partial", "RustTuf.Props.C17_direct_replacement_partial", "RustTuf.Props.C17_targets_can_roll_back"], "note": "False for the code (a newer snapshot may list an older version): counterexample proved. Partial: holds if listed versions do not decrease, and every direct replacement goes up."},
 {"property": "C18", "status": "proved", "theorems": ["RustTuf.Props.C18_delegation_rule", "RustTuf.Props.C18_delegation_effect", "RustTuf.Props.C18_delegation_same_version"], "note": ""},
 {"property": "C19", "status": "proved", "theorems": ["RustTuf.Props.C19_signed_under_current_root"], "note": ""},
 {"property": "C20", "status": "partial", "theorems": ["RustTuf.Props.C20_delegated_authorised_partial", "RustTuf.Props.C20_revoked_delegation_stays_trusted"], "note": "False for the code (delegated metadata outlives revocation of its keys): counterexample proved. Partial: it was authorised when installed, under the same root."},
 {"property": "C21", "status": "partial", "theorems": ["RustTuf.Props.C21_failed_update_partial", "RustTuf.Props.C21_noop_changes_nothing", "RustTuf.Props.C21_failure_can_change_state"], "note": "False for the code (an expired timestamp makes the store forget its snapshot): counterexample proved. Partial: this is the only exception."},
 {"property": "C22", "status": "partial", "theorems": ["RustTuf.Props.C22_unexpired_when_installed_partial", "RustTuf.Props.C22_expired_snapshot_installed", "RustTuf.Props.C22_expired_root_installed"], "note": "False for snapshots and roots: counterexamples proved. Partial: holds for timestamps, targets and delegated metadata."},
 {"property": "C23", "status": "proved", "theorems": ["RustTuf.Props.C23_expired_root_blocks", "RustTuf.Props.C23_expired_timestamp_blocks", "RustTuf.Props.C23_expired_snapshot_blocks", "RustTuf.Props.C23_expired_targets_blocks"], "note": ""},
 {"property": "C24", "status": "proved", "theorems": ["RustTuf.Props.C24_description_source", "RustTuf.Props.C24_top_level_precedence"], "note": ""},
 {"property": "C25", "status": "partial", "theorems": ["RustTuf.Props.C25_chain_covers_path_partial", "RustTuf.Props.C25_own_paths_not_checked"], "note": "False for the code (the last delegation's own paths are not checked): counterexample proved. Partial: all earlier delegations on the chain cover the path."},
 {"property": "C26", "status": "proved", "theorems": ["RustTuf.Props.C26_lookup_terminates", "RustTuf.Props.C26_fuel_irrelevant"], "note": ""},
 {"property": "C27", "status": "partial", "theorems": ["RustTuf.Props.C27_search_continues_partial", "RustTuf.Props.C27_untrusted_role_stops_search"], "note": "False for the code (an untrusted or expired role stops the search): counterexample proved. Partial: trusted unexpired leaf roles do not stop it."},
 {"property": "C28", "status": "proved", "theorems": ["RustTuf.Props.C28_client_refines_tuf", "RustTuf.Props.C28_client_root_chain", "RustTuf.Props.C28_client_consistent"], "note": ""},
 {"property": "C29", "status": "proved", "theorems": ["RustTuf.Props.C29_update_complete", "RustTuf.Props.C29_root_unexpired"], "note": "Every repository, clock and state."},
 {"property": "C30", "status": "proved", "theorems": ["RustTuf.Props.C30_only_verified_is_stored", "RustTuf.Props.C30_constructors"], "note": ""},
 {"property": "C31", "status": "partial", "theorems": ["RustTuf.Props.C31_restart_partial", "RustTuf.Props.C31_reannounced_snapshot_is_lost"], "note": "Partial: needs that accepted documents never describe one snapshot/targets version in two ways (C31_reannounced_snapshot_is_lost shows what happens otherwise), that no delegated role uses a reserved name (C58) and that the root version is below 2^32-1 (C41). Delegated metadata is not loaded at start-up."},
 {"property": "C32", "status": "proved", "theorems": ["RustTuf.Props.C32_crash_safe", "RustTuf.Props.C32_failed_write_and_go_on"], "note": "A process stopped after some writes is a world in which later writes fail (Spec.Lossy, Spec.stopAfter); the theorem covers every public call and any history of calls, restarts and crashes (Spec.Lives). Each single write is atomic (C56). Root versions below 2^32-1 (C41). C32_failed_write_and_go_on: a process that continues after a failed root write is a different matter."},
 {"property": "C33", "status": "proved", "theorems": ["RustTuf.Props.C33_writer_gets_the_target", "RustTuf.Props.C33_writer_bounded", "RustTuf.Props.C33_stored_target_matches"], "note": "Writer: bytes handed over during the call; store: the local repository is assumed to keep targets faithfully (Spec.KeepsTargets)."},
 {"property": "C34", "status": "proved", "theorems": ["RustTuf.Props.C34_failure_changes_nothing"], "note": "For local repositories that keep targets faithfully (Spec.KeepsTargets)."},
 {"property": "C35", "status": "partial", "theorems": ["RustTuf.Props.C35_top_level_targets_found_partial", "RustTuf.Props.C35_delegated_targets_never_found", "RustTuf.Props.C35_delegated_target_missed"], "note": "False for the code: descriptions found in delegated roles are dropped (client.rs:1014-1018). Proved: exact characterisation of what is found, the negation in general, and a concrete witness."},
 {"property": "C36", "status": "partial", "theorems": ["RustTuf.Props.C36_served_under_expired_metadata", "RustTuf.Props.C36_expired_trusts_nothing_new_partial"], "note": "False for the code: no expiry check in _fetch_target. Proved: witness with everything expired, and that such calls bring nothing new into trust."},
 {"property": "C37", "status": "partial", "theorems": ["RustTuf.Props.C37_depth_bounded_partial", "RustTuf.Props.C37_depth_exceeded"], "note": "False for the code by one level. Proved: witness with depth 0, and the bound depth + 1."},
 {"property": "C38", "status": "proved", "theorems": ["RustTuf.Props.C38_rounds", "RustTuf.Props.C38_fuel_irrelevant", "RustTuf.Props.C38_terminates"], "note": "Requests of the root loop are bounded by the number of roots installed plus one; the fuel of the model is irrelevant."},
 {"property": "C39", "status": "partial", "theorems": ["RustTuf.Props.C39_update_panics", "RustTuf.Props.C39_only_overflow_panics_partial"], "note": "False for the code with overflow checks at root version u32::MAX. Proved: witness, and that this is the only panic, for repositories that do not panic."},
 {"property": "C40", "status": "proved", "theorems": ["RustTuf.Props.C40_update_idempotent"], "note": "For a remote that answers the same way at all times and a store that accepts writes."},
 {"property": "C41", "status": "partial", "theorems": ["RustTuf.Props.C41_start_up_partial", "RustTuf.Props.C41_release_partial", "RustTuf.Props.C41_start_up_panics"], "note": "with_trusted_root succeeds whatever the local repository holds, unless the root version overflows (witness)."},
 {"property": "C42", "status": "proved", "theorems": ["RustTuf.C42_target_inside", "RustTuf.C42_metadata_inside", "RustTuf.C42_refused"], "note": "Unix path semantics, symbolic links not considered."},
 {"property": "C43", "status": "partial", "theorems": ["RustTuf.C43_device_names_are_accepted", "RustTuf.C43_check_never_fires", "RustTuf.C43_with_colon_partial"], "note": "The property is false for this code: the device name check compares lower-cased components with upper-case names and never fires (C43_device_names_are_accepted, C43_check_never_fires). Only the weaker claim about names with a colon holds."},
 {"property": "C44", "status": "partial", "theorems": ["RustTuf.C44_collisions", "RustTuf.C44_targets_partial", "RustTuf.C44_shared_target_file_iff", "RustTuf.C44_shared_metadata_file_iff", "RustTuf.C44_metadata_partial", "RustTuf.C44_toplevel_unversioned_partial"], "note": "The property is false for this code (C44_collisions): the version is a file name prefix, and empty components vanish. Proved: the exact exception, no collision of target paths without empty components, and no other path reaches the unversioned file of a top-level role."},
 {"property": "C45", "status": "proved", "theorems": ["RustTuf.Props.C45_is_child", "RustTuf.Props.C45_matches_chain", "RustTuf.Props.C45_chain_covers_each"], "note": ""},
 {"property": "C46", "status": "proved", "theorems": ["RustTuf.C46_hash_prefix_accepted", "RustTuf.C46_hash_prefix_injective", "RustTuf.C46_empty_digest"], "note": "Digests are non-empty; for an empty digest listed by metadata the result can be an error (C46_empty_digest)."},
 {"property": "C47", "status": "proved", "theorems": ["RustTuf.C47_never_more_than_limit", "RustTuf.C47_oversize_fails", "RustTuf.C47_within_limit_passes"], "note": "Holds even for consumers that keep polling after errors."},
 {"property": "C48", "status": "proved", "theorems": ["RustTuf.C48_success_iff", "RustTuf.C48_streaming", "RustTuf.C48_error_not_sticky", "RustTuf.C48_unsupported_refused"], "note": "Also shown: the digest error is reported once (C48_error_not_sticky)."},
 {"property": "C49", "status": "proved", "theorems": ["RustTuf.C49_outcome", "RustTuf.C49_chunking_independent"], "note": ""},
 {"property": "C50", "status": "partial", "theorems": ["RustTuf.C50_aborted_only_if_slow", "RustTuf.C50_fast_enough_passes_partial", "RustTuf.C50_slow_is_aborted", "RustTuf.C50_rounding_can_abort", "RustTuf.C50_other_events_pass"], "note": "binary32 arithmetic is modelled with explicit rounding. The exact claim is false within a relative rounding error of 2^-21 (C50_rounding_can_abort); also shown: stalled transfers are never aborted."},
 {"property": "C51", "status": "proved", "theorems": ["RustTuf.Props.C51_injective", "RustTuf.Props.C51_same_bytes_iff_reordered"], "note": "Values as serde_json::Value holds them; for documents as written, equality up to member order."},
 {"property": "C52", "status": "proved", "theorems": ["RustTuf.Props.C52_order_irrelevant", "RustTuf.Props.C52_total_on_integers", "RustTuf.Props.C52_canonical_form"], "note": "Integers between i64::MIN and u64::MAX, as serde_json reads them. Members that share a name must keep their order (the last one wins)."},
 {"property": "C53", "status": "proved", "theorems": ["RustTuf.Props.C53_one_signature_per_key", "RustTuf.Props.C53_add_replaces_own", "RustTuf.Props.C53_merge_adds_missing", "RustTuf.Props.C53_build_is_sorted", "RustTuf.Props.C53_builder_sign", "RustTuf.Props.C53_signatures_cover_content", "RustTuf.Props.C53_merge_keeps_parsed_duplicates"], "note": "For private keys whose signatures carry their own key ID, which both implementations in crypto.rs do. Parsed objects may hold duplicates, which merging keeps (C53_merge_keeps_parsed_duplicates)."},
 {"property": "C54", "status": "proved", "theorems": ["RustTuf.Props.C54_root", "RustTuf.Props.C54_root_value", "RustTuf.Props.C54_timestamp", "RustTuf.Props.C54_snapshot", "RustTuf.Props.C54_targets", "RustTuf.Props.C54_json_decoders"], "note": "For all byte strings given to the JSON reader; also proves every assumption about decoders used by the other properties (C54_json_decoders). A decoded role may still name keys that the document does not list."},
 {"property": "C55", "status": "proved", "theorems": ["RustTuf.C55_preference", "RustTuf.C55_depends_only_on_supported", "RustTuf.C55_choice_is_usable"], "note": ""},
 {"property": "C56", "status": "proved", "theorems": ["RustTuf.C56_atomic", "RustTuf.C56_failed_stores_change_nothing", "RustTuf.C56_ok_only_if_complete", "RustTuf.C56_nothing_else_changes", "RustTuf.C56_persist_installs"], "note": "Any number of concurrent stores; rename is atomic; temporary names are assumed to differ from destination names (TempsApart), since the code creates temporary files in the same directories. Durability (fsync) is not modelled."},
 {"property": "C57", "status": "proved", "theorems": ["RustTuf.Props.C57_store_then_fetch_metadata", "RustTuf.Props.C57_store_then_fetch_target", "RustTuf.Props.C57_failed_store", "RustTuf.Props.C57_new_is_empty", "RustTuf.Props.C57_fetch_sees_latest_store", "RustTuf.Props.C57_reader_is_unaffected", "RustTuf.Props.C57_store_puts_its_source"], "note": "Sequential calls, and all interleavings of concurrent calls at the granularity of lock acquisitions."},
 {"property": "C58", "status": "partial", "theorems": ["RustTuf.Props.C58_other_roles_refused_partial", "RustTuf.Props.C58_own_path_reaches_repository", "RustTuf.Props.C58_timestamp_overwritten"], "note": "False for the code: a delegated role named timestamp passes the path check and overwrites timestamp.json (C58_timestamp_overwritten). Partial: every other clash is refused."},
 {"property": "C59", "status": "partial", "theorems": ["RustTuf.Props.C59_server_file", "RustTuf.C59_url_shape", "RustTuf.C59_server_stays_below_partial", "RustTuf.C59_accepted_components", "RustTuf.C59_percent_traversal"], "note": "The normalising-server part is false if a component contains '%' (C59_percent_traversal), hence _partial for that part; the URL shape holds for all components. C59_server_file says which file is looked up for arbitrary components."},
 {"property": "C60", "status": "partial", "theorems": ["RustTuf.Props.C60_same_url_iff", "RustTuf.Props.C60_same_target_url_iff", "RustTuf.C60_percent_collision", "RustTuf.C60_injective_partial", "RustTuf.C60_targets_partial"], "note": "False for components containing '%' (C60_percent_collision). Partial: injective without '%'. C60_same_url_iff and C60_same_target_url_iff say exactly which components and target paths share a URL."},
 {"property": "C61", "status": "proved", "theorems": ["RustTuf.C61_content_iff", "RustTuf.C61_other_statuses", "RustTuf.Props.C61_status_of_next_root"], "note": ""},
 {"property": "C62", "status": "proved", "theorems": ["RustTuf.C62_targets_apart_from_metadata", "RustTuf.C62_builder_default_collides"], "note": "Also proved: with the bare builder defaults the claim fails (C62_builder_default_collides)."},
 {"property": "C63", "status": "proved", "theorems": ["RustTuf.C63_digests_of_everything", "RustTuf.C63_failures"], "note": ""},
 {"property": "C64", "status": "proved", "theorems": ["RustTuf.C64_description_round_trip"], "note": ""},
 {"property": "C65", "status": "proved", "theorems": ["RustTuf.Props.C65_requests_limited", "RustTuf.Props.C65_constructors"], "note": ""},
 {"property": "C66", "status": "partial", "theorems": ["RustTuf.Props.C66_expired_files_accepted", "RustTuf.Props.C66_new_files_fresh_partial"], "note": "False for the code: an already trusted timestamp, snapshot or targets is kept although expired, and update reports success."},
 {"property": "C67", "status": "partial", "theorems": ["RustTuf.Props.C67_requested_version_ignored", "RustTuf.Props.C67_requested_version_partial"], "note": ""},
 {"property": "C68", "status": "proved", "theorems": ["RustTuf.Props.C68_canonical_bytes_read_back", "RustTuf.Props.C68_canonical_bytes_read_back_normal", "RustTuf.Props.C68_never_misread"], "note": "Below 128 levels the value is always read back; at any depth it is never misread (C68_never_misread). Whole input taken to be UTF-8; float conversion a parameter."},
 {"property": "C69", "status": "proved", "theorems": ["RustTuf.Props.C69_snapshot_names", "RustTuf.Props.C69_targets_names"], "note": "Safe on Unix and for the characters the crate lists; device names are a separate matter (C43)."},
 {"property": "C70", "status": "proved", "theorems": ["RustTuf.Props.C70_root", "RustTuf.Props.C70_timestamp", "RustTuf.Props.C70_snapshot", "RustTuf.Props.C70_targets", "RustTuf.Props.C70_root_again", "RustTuf.Props.C70_timestamp_again", "RustTuf.Props.C70_snapshot_again", "RustTuf.Props.C70_targets_again"], "note": "Proved for all four kinds. Hypotheses: base64 can be read back and a key read from SPKI can be written and read again (Laws); the expiry date survives formatting (GoodDate; false for dates with fractions of a second, which format_datetime drops); thresholds fit u32. Equality is that of HashMap and HashSet. The *_again theorems show that decoded metadata meets all other hypotheses."},
 {"property": "C71", "status": "proved", "theorems": ["RustTuf.Props.C71_readable_iff_not_deep", "RustTuf.Props.C71_deep_custom_data_is_unreadable", "RustTuf.Props.C71_to_raw_parses", "RustTuf.Props.C71_published_is_accepted", "RustTuf.Props.C71_root", "RustTuf.Props.C71_timestamp", "RustTuf.Props.C71_snapshot", "RustTuf.Props.C71_targets", "RustTuf.Props.C71_builder_content", "RustTuf.Props.C71_builder_succeeds", "RustTuf.Props.C71_root_builder", "RustTuf.Props.C71_signed_is_published"], "note": "The signature primitive, SHA-256, dates, base64 and SPKI are parameters. Key IDs of signatures must have 64 bytes. Content must be nested less than 127 levels (serde_json's recursion limit); for root, timestamp and snapshot this is proved, for targets it is a condition on custom data, and C71_readable_iff_not_deep shows that it is necessary. For JsonPretty see C82."},
 {"property": "C72", "status": "partial", "theorems": ["RustTuf.Props.C72_terminating_ends_search_partial", "RustTuf.Props.C72_leaf_does_not_end_search", "RustTuf.Props.C72_child_overrides"], "note": "False for the code in two ways, both proved with witnesses: a terminating delegation to a role without delegations of its own is skipped, and a non-terminating delegation of the delegated role overrides the flag. Proved when the role is not trusted, expired, or delegates to terminating delegations only."},
 {"property": "C73", "status": "proved", "theorems": ["RustTuf.Props.C73_honest_update_succeeds"], "note": "Liveness of the client against an honest repository."},
 {"property": "C74", "status": "proved", "theorems": ["RustTuf.Props.C74_published_target_is_written", "RustTuf.Props.C74_listed_target_is_written", "RustTuf.Props.C74_published_target_is_stored"], "note": "For targets listed in the top-level targets metadata; targets of delegated roles are not always found, see C35."},
 {"property": "C75", "status": "proved", "theorems": ["RustTuf.Props.C75_next_root_was_missing", "RustTuf.Props.C75_http_next_root_404", "RustTuf.Props.C75_other_errors_stop_the_update", "RustTuf.Props.C75_missing_root_ends_the_search"], "note": "The io NotFound error of a stream counts as missing, as in the code. OverHttp states that bodies and transport do not fail with NotFound."},
 {"property": "C76", "status": "proved", "theorems": ["RustTuf.Props.C76_key_id_determines_key", "RustTuf.Props.C76_listed_keys", "RustTuf.Props.C76_root_key_ids", "RustTuf.Props.C76_two_ids_for_one_key"], "note": "SHA-256 is a parameter; the conclusion is equality or a collision exhibited by the documents of the two keys at hand. Laws states that base64 and SPKI can be read back, which C79_laws proves of the formats in use."},
 {"property": "C77", "status": "proved", "theorems": ["RustTuf.Props.C77_root_is_as_asked", "RustTuf.Props.C77_root_builds_iff", "RustTuf.Props.C77_built_root_is_publishable", "RustTuf.Props.C77_root_from_existing", "RustTuf.Props.C77_key_added_twice_is_never_accepted", "RustTuf.Props.C77_key_added_twice_is_refused", "RustTuf.Props.C77_description_of_published_bytes", "RustTuf.Props.C77_description_exists", "RustTuf.Props.C77_snapshot_is_as_asked", "RustTuf.Props.C77_built_snapshot_is_publishable", "RustTuf.Props.C77_timestamp_is_as_asked", "RustTuf.Props.C77_built_timestamp_is_publishable", "RustTuf.Props.C77_targets_are_as_asked", "RustTuf.Props.C77_delegations", "RustTuf.Props.C77_built_targets_are_publishable"], "note": "The default expiry (Utc::now() plus days) is an argument. Descriptions under the JsonPretty interchange are the subject of C83. A key added twice is finding 18."},
 {"property": "C78", "status": "proved", "theorems": ["RustTuf.Props.C78_release_is_published", "RustTuf.Props.C78_release_is_adopted", "RustTuf.Props.C78_released_target_is_listed", "RustTuf.Props.C78_released_target_is_delivered"], "note": "Composes C70, C71, C73, C74 and C77. Laws states that base64 and SPKI can be read back and is proved for the formats in use by C79_laws; dates must survive formatting (whole seconds, C80)."},
 {"property": "C79", "status": "proved", "theorems": ["RustTuf.Props.C79_base64", "RustTuf.Props.C79_base64_read", "RustTuf.Props.C79_laws", "RustTuf.Props.C79_rsa_keys", "RustTuf.Props.C79_good_keys", "RustTuf.Props.C79_spki_form", "RustTuf.Props.C79_from_spki_keys", "RustTuf.Props.C79_odd_key_is_never_accepted"], "note": "derp and data-encoding are not part of the repository; the model follows their documented formats (strict DER with minimal lengths of at most two bytes)."},
 {"property": "C80", "status": "proved", "theorems": ["RustTuf.Props.C80_read_exactly", "RustTuf.Props.C80_second_60", "RustTuf.Props.C80_calendar", "RustTuf.Props.C80_text", "RustTuf.Props.C80_reads", "RustTuf.Props.C80_read_back", "RustTuf.Props.C80_late_dates", "RustTuf.Props.C80_never_later", "RustTuf.Props.C80_good_dates", "RustTuf.Props.C80_expiry", "RustTuf.Props.C80_late_expiry", "RustTuf.Props.C80_root"], "note": "chrono is not part of the repository; the model follows its documented %Y-%m-%dT%H:%M:%SZ semantics. The upper limit (year 9999) is finding 36, the loss of fractions finding 20."},
 {"property": "C81", "status": "proved", "theorems": ["RustTuf.Props.C81_extract", "RustTuf.Props.C81_extract_only", "RustTuf.Props.C81_public_key_unique", "RustTuf.Props.C81_private_key_unique", "RustTuf.Props.C81_ed25519_signs", "RustTuf.Props.C81_ed25519_loads", "RustTuf.Props.C81_rsa_signs", "RustTuf.Props.C81_sign_never_panics", "RustTuf.Props.C81_rsa_loads", "RustTuf.Props.C81_rsa_loads_iff", "RustTuf.Props.C81_loaded_signs", "RustTuf.Props.C81_keys_are_good", "RustTuf.Props.C81_exactly_the_signers", "RustTuf.Props.C81_signed_is_published", "RustTuf.Props.C81_root_is_accepted"], "note": "ring is a parameter; RingLaw says that it accepts its own signatures. derp is not part of the repository; DER integers follow its documentation. Generating keys (openssl, ring's generator) is not modelled."},
 {"property": "C82", "status": "proved", "theorems": ["RustTuf.Props.C82_canonical_plus_layout", "RustTuf.Props.C82_same_document", "RustTuf.Props.C82_same_verdict"], "note": ""},
 {"property": "C83", "status": "partial", "theorems": ["RustTuf.Props.C83_describes_written_bytes_partial", "RustTuf.Props.C83_never_describes_the_published_bytes", "RustTuf.Props.C83_published_bytes_are_refused", "RustTuf.Props.C83_timestamp_and_snapshot"], "note": "The code does not have this property: to_writer of JsonPretty writes indented text while to_raw writes canonical text. C83_never_describes_the_published_bytes proves that this is so for all metadata, C83_published_bytes_are_refused that clients refuse the published bytes unless digests collide. The partial theorem says what descriptions do describe."},
 {"property": "C84", "status": "proved", "theorems": ["RustTuf.Props.C84_rotations_are_followed", "RustTuf.Props.C84_release_is_adopted", "RustTuf.Props.C84_target_is_listed", "RustTuf.Props.C84_target_is_delivered"], "note": "Composition of C77, C78, C79, C80, C81 and C71 with the formats in use. Assumed: ring accepts what it signs (RingLaw), SHA-256 gives 32 bytes, the keys involved do not exhibit a SHA-256 collision."},
 {"property": "C85", "status": "proved", "theorems": ["RustTuf.Props.C85_starts_with_root", "RustTuf.Props.C85_starts_with_keys", "RustTuf.Props.C85_installs", "RustTuf.Props.C85_new_client_knows_target", "RustTuf.Props.C85_new_client_gets_target"], "note": "As C84, and construction of the client. The local repository is empty and returns what was written last (Faithful)."},
 {"property": "C86", "status": "proved", "theorems": ["RustTuf.Props.C86_names_apart", "RustTuf.Props.C86_file_system_is_a_map", "RustTuf.Props.C86_memory_is_a_map", "RustTuf.Props.C86_memory_clients_cannot_tell", "RustTuf.Props.C86_clients_cannot_tell", "RustTuf.Props.C86_restart_with_files", "RustTuf.Props.C86_crash_with_files", "RustTuf.Props.C86_shared_directory", "RustTuf.Props.C86_reopen", "RustTuf.Props.C86_new_is_empty", "RustTuf.Props.C86_role_overwrites_root"], "note": "Sequential calls on a tree of files and directories (Model/FileSystem); concurrency and temporary files are C56. Proved by a relational logic over the client code (Lemmas/Sim). C86_role_overwrites_root and C86_shared_directory show that the conditions on names and directories are needed."},
 {"property": "C87", "status": "partial", "theorems": ["RustTuf.Props.C87_web_sees_files_partial", "RustTuf.Props.C87_web_sees_decoded_names", "RustTuf.Props.C87_body_errors", "RustTuf.Props.C87_body_is_whole", "RustTuf.Props.C87_missing_iff_404", "RustTuf.Props.C87_new_panics", "RustTuf.Props.C87_builder", "RustTuf.Props.C87_percent_is_misread", "RustTuf.Props.C87_web_serves", "RustTuf.Props.C87_web_serves_target_partial", "RustTuf.Props.C87_over_http", "RustTuf.Props.C87_newest_root_was_asked_for", "RustTuf.Props.C87_from_disk_to_disk_partial", "RustTuf.Props.C87_from_upload_to_disk_partial"], "note": "Assumed of the server: it hands out the files below a directory, fast enough, after decoding and normalising request paths (FileServer); such servers exist for every tree (staticServer_serves). Partial because names with a percent sign are misread (C87_percent_is_misread). Whole chain from uploads to the file on the client: C87_from_upload_to_disk_partial. C87_web_sees_decoded_names says which file is seen for arbitrary accepted names."},
 {"property": "C88", "status": "proved", "theorems": ["RustTuf.Props.C88_authentic_is_approved", "RustTuf.Props.C88_roots_are_the_authors", "RustTuf.Props.C88_installed_with_keys", "RustTuf.Props.C88_trusted_is_the_authors", "RustTuf.Props.C88_delivered_is_the_authors", "RustTuf.Props.C88_stored_is_the_authors", "RustTuf.Props.C88_targets_keys_are_needed"], "note": "Unforgeable: a valid signature of an honest key (by scheme and value) is over something the author approves of. Guarded: the attacker has fewer distinct key IDs than the threshold. C88_targets_keys_are_needed: with the targets key lost but the root keys guarded, a target is delivered without any approved targets metadata."},
 {"property": "C89", "status": "proved", "theorems": ["RustTuf.Props.C89_start_ignores_remote", "RustTuf.Props.C89_keys_start_prefers_local", "RustTuf.Props.C89_local_start_takes_local_root", "RustTuf.Props.C89_keys_start_takes_root", "RustTuf.Props.C89_update_ignores_local"], "note": "Stated as equality of runs with any other provider. Added after the wrong programs 'with_trusted_local takes the root from the remote repository' and 'a local root is stored again' broke no theorem."},
 {"property": "C90", "status": "proved", "theorems": ["RustTuf.Props.C90_new_root_recovers", "RustTuf.Props.C90_replaced_keys_recover", "RustTuf.Props.C90_without_new_root_stuck"], "note": "Hypotheses as in C73 (honest repository) and C88 (attacker). C90_without_new_root_stuck shows that a new root is needed."},
 {"property": "C91", "status": "partial", "theorems": ["RustTuf.Props.C91_no_rollback_after_restart_partial", "RustTuf.Props.C91_expired_timestamp_is_forgotten"], "note": "Partial because the code does not have the property as users expect it: C91_expired_timestamp_is_forgotten is a client that accepts timestamp 1 after it had trusted timestamp 2. C91_no_rollback_after_restart_partial covers restarts while root and timestamp have not expired, also after a call that was stopped."},
 {"property": "C92", "status": "proved", "theorems": ["RustTuf.Props.C92_update_while_publishing", "RustTuf.Props.C92_commit_order_is_orderly", "RustTuf.Props.C92_all_updates_succeed", "RustTuf.Props.C92_clients_update_while_releases_are_uploaded", "RustTuf.Props.C92_consistent_snapshots_are_needed", "RustTuf.Props.C92_upload_order_matters", "RustTuf.Props.C92_root_change_during_update_fails", "RustTuf.Props.C92_update_while_rotating", "RustTuf.Props.C92_all_updates_succeed_while_rotating"], "note": "C92_consistent_snapshots_are_needed, C92_upload_order_matters and C92_root_change_during_update_fails are witnesses that the hypotheses are needed; in each of them all other hypotheses hold."},
 {"property": "C93", "status": "partial", "theorems": ["RustTuf.Props.C93_expired_names_role_partial", "RustTuf.Props.C93_missing_names_role", "RustTuf.Props.C93_targets_blamed_on_snapshot", "RustTuf.Props.C93_lookup_errors", "RustTuf.Props.C93_json", "RustTuf.Props.C93_update_expired_partial", "RustTuf.Props.C93_update_never_missing", "RustTuf.Props.C93_update_blames_snapshot"], "note": "Partial because the code lacks the property: C93_targets_blamed_on_snapshot and C93_update_blames_snapshot show the wrong role being named. All other errors about expiry and missing metadata are covered."},
 {"property": "C94", "status": "proved", "theorems": ["RustTuf.Props.C94_reading_ends", "RustTuf.Props.C94_verification_errors", "RustTuf.Props.C94_no_document_stops_the_client"], "note": "A root with the largest version number is excluded because of C39 (overflow)."},
 {"property": "C95", "status": "proved", "theorems": ["RustTuf.Props.C95_requests_bounded", "RustTuf.Props.C95_search_is_exponential", "RustTuf.Props.C95_requests_bounded_by_documents"], "note": "C95_search_is_exponential gives, for every number of roles and every depth, a reachable client and a repository that reach half of the bound of C95_requests_bounded."},
 {"property": "C96", "status": "proved", "theorems": ["RustTuf.Props.C96_last_setting_wins", "RustTuf.Props.C96_default_translator", "RustTuf.Props.C96_limits_enforced", "RustTuf.Props.C96_always_limited"], "note": ""},
 {"property": "C97", "status": "proved", "theorems": ["RustTuf.Props.C97_order", "RustTuf.Props.C97_hash", "RustTuf.Props.C97_equality_and_order", "RustTuf.Props.C97_equal_is_identical"], "note": ""},
 {"property": "C98", "status": "proved", "theorems": ["RustTuf.Props.C98_only_covering_roles", "RustTuf.Props.C98_nothing_to_ask"], "note": ""},
 {"property": "C99", "status": "proved", "theorems": ["RustTuf.Props.C99_work_bounded", "RustTuf.Props.C99_requests"], "note": ""},
 {"property": "C100", "status": "proved", "theorems": ["RustTuf.Props.C100_interrupted_calls_can_be_repeated", "RustTuf.Props.C100_dropped_call_is_an_initial_part", "RustTuf.Props.C100_missed_write_is_not_made_up"], "note": "A dropped future is modelled as a request that panics (dropAfter); C100_dropped_call_is_an_initial_part shows that this is an initial part of the whole call. C100_missed_write_is_not_made_up is the limit: a write that was missed is not repeated."},
 {"property": "C101", "status": "proved", "theorems": ["RustTuf.Props.C101_unknown_members_are_ignored", "RustTuf.Props.C101_unknown_members_outside", "RustTuf.Props.C101_newer_documents_are_accepted", "RustTuf.Props.C101_unknown_members_are_signed", "RustTuf.Props.C101_unknown_hash_refused", "RustTuf.Props.C101_unknown_key_refused", "RustTuf.Props.C101_timestamp_lists_one_file"], "note": "The places where members may be added are those of Shape in Spec/Unknown: the objects with fixed members. Objects used as maps (keys, roles, targets, meta, hashes, custom) have no unknown members."},
 {"property": "C102", "status": "proved", "theorems": ["RustTuf.Props.C102_root_has_its_keys", "RustTuf.Props.C102_trusted_roles_have_their_keys", "RustTuf.Props.C102_delegations_need_their_keys", "RustTuf.Props.C102_timestamp_refused", "RustTuf.Props.C102_update_needs_all_keys", "RustTuf.Props.C102_targets_need_their_keys", "RustTuf.Props.C102_keys_may_be_missing"], "note": "C102_keys_may_be_missing is a limit of C54: thresholds are compared with the number of key IDs, not with the number of listed keys."},
 {"property": "C103", "status": "proved", "theorems": ["RustTuf.Props.C103_signed_bytes_are_the_content", "RustTuf.Props.C103_last_member_counts", "RustTuf.Props.C103_repeated_parts_refused", "RustTuf.Props.C103_repeated_in_signature_refused", "RustTuf.Props.C103_arrays_are_read_as_objects"], "note": ""},
 {"property": "C104", "status": "partial", "theorems": ["RustTuf.Props.C104_other_delegations_do_not_matter_partial", "RustTuf.Props.C104_added_delegations_do_not_matter_partial", "RustTuf.Props.C104_terminating_elsewhere_ends_search"], "note": "False for the code if the delegation for other paths is terminating: it ends the search (proved). Proved for delegations that are not terminating: moving them and changing their paths without further condition, adding and removing them if no metadata delegate to a role called targets."},
 {"property": "C105", "status": "partial", "theorems": ["RustTuf.Props.C105_top_level_roles", "RustTuf.Props.C105_delegated_roles_partial", "RustTuf.Props.C105_foreign_key_is_accepted", "RustTuf.Props.C105_foreign_key_is_decoded"], "note": "Proved for the four top-level roles. False for delegated roles: the key map of delegations is not compared with computed key IDs (C105_foreign_key_is_accepted); the partial theorem assumes that it lists the named keys under their own IDs."},
 {"property": "C106", "status": "proved", "theorems": ["RustTuf.Props.C106_trusted_goes_back_to_timestamps", "RustTuf.Props.C106_trusted_is_published", "RustTuf.Props.C106_delivered_is_published", "RustTuf.Props.C106_no_mix_and_match", "RustTuf.Props.C106_reissued_version_is_missed", "RustTuf.Props.C106_timestamp_keys_are_needed"], "note": "Proved against the abstract attacker of C88. The author's publishing discipline (Releases, OneEach) and the absence of second preimages among received documents are hypotheses. C106_timestamp_keys_are_needed and C106_reissued_version_is_missed show that the thresholds and the discipline are needed."},
 {"property": "C107", "status": "proved", "theorems": ["RustTuf.Props.C107_type_is_read", "RustTuf.Props.C107_one_role", "RustTuf.Props.C107_other_roles_refuse", "RustTuf.Props.C107_only_roots_start", "RustTuf.Props.C107_delegated_role_is_not_named"], "note": "Proved for the JSON interchange. HasType also covers the forms that serde accepts beside plain strings and objects (arrays, variant objects). C107_delegated_role_is_not_named is the limit named in the statement."},
 {"property": "C108", "status": "proved", "theorems": ["RustTuf.Props.C108_root_is_edited", "RustTuf.Props.C108_root_builds_iff", "RustTuf.Props.C108_no_key_is_removed", "RustTuf.Props.C108_key_listed_already", "RustTuf.Props.C108_edited_root_is_publishable", "RustTuf.Props.C108_next_root_is_accepted", "RustTuf.Props.C108_snapshot_is_edited", "RustTuf.Props.C108_edited_snapshot_is_publishable"], "note": ""},
 {"property": "C109", "status": "proved", "theorems": ["RustTuf.Props.C109_roots_do_not_fork", "RustTuf.Props.C109_same_version_same_content", "RustTuf.Props.C109_timestamp_keys_suffice", "RustTuf.Props.C109_one_timestamp_one_view", "RustTuf.Props.C109_same_targets", "RustTuf.Props.C109_version_used_twice"], "note": ""},
 {"property": "C110", "status": "proved", "theorems": ["RustTuf.Props.C110_no_root_is_lost", "RustTuf.Props.C110_others_can_go_on", "RustTuf.Props.C110_others_can_go_on_at_start", "RustTuf.Props.C110_no_forks", "RustTuf.Props.C110_timestamps_go_back"], "note": "Proved for roots, with C110_timestamps_go_back as the limit named in the statement. Single accesses to files are atomic (Shared)."},
 {"property": "C111", "status": "proved", "theorems": ["RustTuf.Props.C111_hex_is_read_exactly", "RustTuf.Props.C111_one_spelling", "RustTuf.Props.C111_hex_is_written", "RustTuf.Props.C111_from_hex", "RustTuf.Props.C111_signature_is_read", "RustTuf.Props.C111_hashes_are_read", "RustTuf.Props.C111_hashes_are_spelled", "RustTuf.Props.C111_ed25519_key_is_spelled"], "note": "Proved for objects; arrays of fields are covered by C103."},
 {"property": "C112", "status": "proved", "theorems": ["RustTuf.Props.C112_written_while_publishing", "RustTuf.Props.C112_stored_while_publishing", "RustTuf.Props.C112_updates_and_downloads_while_publishing", "RustTuf.Props.C112_updates_and_downloads_while_rotating", "RustTuf.Props.C112_earlier_targets_are_needed", "RustTuf.Props.C112_names_with_digests_are_needed"], "note": "C112_earlier_targets_are_needed and C112_names_with_digests_are_needed are witnesses that the hypotheses on target files are needed. Targets below delegations are not covered, because the code never returns them (C35)."},
 {"property": "C113", "status": "proved", "theorems": ["RustTuf.C113_calls", "RustTuf.C113_sessions", "RustTuf.C113_in_memory", "RustTuf.C113_on_disk", "RustTuf.C113_downloads_to_a_writer", "RustTuf.C113_partial_output_depends_on_chunks"], "note": "C113_partial_output_depends_on_chunks is a witness that partial output of a failed download is not covered. The limit on the bit rate is part of the HTTP provider (C50); the streams compared here are what its readers return."},
 {"property": "C114", "status": "proved", "theorems": ["RustTuf.C114_texts", "RustTuf.C114_documents", "RustTuf.C114_one_meaning", "RustTuf.C114_others_are_refused", "RustTuf.C114_decoded", "RustTuf.C114_canonical_form_is_json", "RustTuf.C114_accepted_metadata", "RustTuf.C114_short_texts"], "note": "Which numbers with fraction, exponent or excess size are accepted, and as what, is the parameter FloatLib. In members that a decoder ignores serde_json checks less (it accepts unpaired surrogates and any nesting there); the model reads them like all others."},
 {"property": "C115", "status": "proved", "theorems": ["RustTuf.C115_root", "RustTuf.C115_timestamp", "RustTuf.C115_snapshot", "RustTuf.C115_targets", "RustTuf.C115_published_bytes", "RustTuf.C115_published_at_once", "RustTuf.C115_root_iff", "RustTuf.C115_timestamp_iff", "RustTuf.C115_snapshot_iff", "RustTuf.C115_targets_iff"], "note": "RSA-PSS signatures are randomized; the claim about published bytes is for keys whose signatures are a function of the message (Ed25519). The claim about serialization needs no assumption about keys. The converse uses the laws of the key and date formats (C70, C79, C80)."},
 {"property": "C116", "status": "proved", "theorems": ["RustTuf.C116_trusted_metadata", "RustTuf.C116_descriptions", "RustTuf.C116_calls", "RustTuf.C116_construction", "RustTuf.C116_sessions", "RustTuf.C116_json", "RustTuf.C116_clash_is_collision"], "note": "A layout is a function of the document read, so one document read twice within one call is laid out the same both times; different calls may use different layouts. The key map of delegations is left alone if it lists two keys with one ID, which for JSON documents is a SHA-256 collision."},
 {"property": "C117", "status": "proved", "theorems": ["RustTuf.Props.C117_in_order", "RustTuf.Props.C117_success", "RustTuf.Props.C117_failure", "RustTuf.Props.C117_every_writer", "RustTuf.Props.C117_downloads", "RustTuf.Props.C117_gets_the_target", "RustTuf.Props.C117_any_way", "RustTuf.Props.C117_checked", "RustTuf.Props.C117_growing_file"], "note": "futures_util::io::copy is third-party; it is modelled after its documentation, with both ways in which its releases treat the end of the reader while the writer is being flushed. C117_growing_file is a finding about the way that polls the reader again."},
 {"property": "C118", "status": "proved", "theorems": ["RustTuf.Props.C118_counter", "RustTuf.Props.C118_largest_setting_is_no_limit"], "note": "The fuel of the counting model is the number of nested calls; C118_counter shows that for settings below 2^32 - 1 it plays no role."},
 {"property": "C119", "status": "proved", "theorems": ["RustTuf.Props.C119_calls_of_tuf", "RustTuf.Props.C119_update_with_a_slow_clock", "RustTuf.Props.C119_update_with_any_clock", "RustTuf.Props.C119_listed_targets", "RustTuf.Props.C119_start_is_not_covered"], "note": "C119_start_is_not_covered shows that nothing of the kind holds for what a client loads when it starts."},
 {"property": "C120", "status": "proved", "theorems": ["RustTuf.Props.C120_update", "RustTuf.Props.C120_other_targets", "RustTuf.Props.C120_listed_targets", "RustTuf.Props.C120_without_snapshot"], "note": "A delegated role may be called timestamp or targets (see C58), so a search may ask for and store files of these names."},
 {"property": "C121", "status": "proved", "theorems": ["RustTuf.Props.C121_signed_metadata", "RustTuf.Props.C121_signed_by_builder", "RustTuf.Props.C121_root_is_read", "RustTuf.Props.C121_timestamp_is_read", "RustTuf.Props.C121_snapshot_is_read", "RustTuf.Props.C121_targets_is_read", "RustTuf.Props.C121_roots_are_made", "RustTuf.Props.C121_installed_with_keys", "RustTuf.Props.C121_trusted_is_made", "RustTuf.Props.C121_delivered_is_made", "RustTuf.Props.C121_stored_is_made"], "note": "Laws: what C70 assumes of the libraries. The author's objects are as the builders make them (C77) and their dates survive being written. Unforgeable, Guarded: as in C88. Made metadata of delegated roles counts as targets metadata: signing does not bind a document to the name of a role (see C107)."},
 {"property": "C122", "status": "proved", "theorems": ["RustTuf.Props.C122_store", "RustTuf.Props.C122_client", "RustTuf.Props.C122_described_is_made", "RustTuf.Props.C122_other_roles_matter"], "note": "Proved on condition that the keys of all delegated roles are guarded. C122_other_roles_matter proves the last sentence of the statement with a witness. Clients do not look at delegated descriptions (C35); C122_client is about the store they keep. An approved document of one delegated role may stand for another that has the same keys: signing does not bind a document to the name of a role."},
 {"property": "C123", "status": "proved", "theorems": ["RustTuf.Props.C123_store", "RustTuf.Props.C123_client", "RustTuf.Props.C123_withdrawn", "RustTuf.Props.C123_new_root_forgets", "RustTuf.Props.C123_withdrawn_made", "RustTuf.Props.C123_until_new_root"], "note": "NeverBack: of the author's timestamps the later announce no older snapshots, of the author's snapshots the later list no older metadata. C15 and C17 show that it is needed. C123_new_root_forgets proves the last sentence of the statement. About one running client; for restarts see C91."},
 {"property": "C124", "status": "proved", "theorems": ["RustTuf.Props.C124_names_and_depth_do_not_matter_for_updates", "RustTuf.Props.C124_targets_depend_on_their_own_name", "RustTuf.Props.C124_depth_does_not_matter_for_listed_targets", "RustTuf.Props.C124_refused_names", "RustTuf.Props.C124_raised_limits", "RustTuf.Props.C124_raised_limits_in_sessions", "RustTuf.Props.C124_http_ignores_limits", "RustTuf.Props.C124_start_is_not_covered"], "note": "LimitBlind: the provider gets the limit as an argument and could act on it; C124_http_ignores_limits shows that HttpRepository does not. Limits are usize values. The error for documents that are too long is the one for all failing reads (Error::Opaque). C124_start_is_not_covered proves the sentence in parentheses. The order of a search below delegations does depend on the limit on the depth; see C118 and C37."},
 {"property": "C125", "status": "proved", "theorems": ["RustTuf.Props.C125_updates_are_cheap", "RustTuf.Props.C125_updates_are_cheap_made", "RustTuf.Props.C125_searches_are_made", "RustTuf.Props.C125_searches_are_the_authors"], "note": "Modest: bounds on the versions of the author's roots and on the lengths that the author's timestamps and snapshots state. Unforgeable, Guarded: as in C88. Bytes are those of documents read completely; of a stream that is refused at most as many are read as its limit says (C47). Searches (C125_searches_are_the_authors) are bounded by the author's delegations as in C95; that bound is exponential in the depth, and C95 shows that it is essentially reached. With limits turned off the bound on requests still holds."},
 {"property": "C126", "status": "proved", "theorems": ["RustTuf.Props.C126_stored_is_the_authors", "RustTuf.Props.C126_constructors", "RustTuf.Props.C126_stored_is_made"], "note": "Genuine: the signed part is one of the author's messages and decodes as metadata of the role of its path; a numbered file is a root of that number. Unforgeable, Guarded: as in C88. DelegationsGuarded must hold for every delegation of the author (see C122 for why). The file as a whole is not claimed to be the author's: the list of signatures is outside what is signed, so a repository can add or drop signatures beyond the threshold. Targets: C88_delivered_is_the_authors."},
 {"property": "C127", "status": "proved", "theorems": ["RustTuf.Props.C127_store", "RustTuf.Props.C127_client", "RustTuf.Props.C127_expired_releases_are_gone", "RustTuf.Props.C127_running_clients_are_not_covered", "RustTuf.Props.C127_versions_are_made", "RustTuf.Props.C127_expired_releases_are_gone_made"], "note": "TrustsLive: announced by unexpired metadata of the author. Unforgeable: as in C88. TimeGuarded, TargetsGuarded: the attacker has less than a threshold of the keys of these roles of the trusted root. The snapshot itself is not claimed to be unexpired when it is trusted (the code checks that only when something is read from it, see C36); the versions of targets and delegations are. Delegated metadata are covered as to version and expiry; who signed them is C122. C127_running_clients_are_not_covered: the negation for clients that are not restarted. C127_versions_are_made, C127_expired_releases_are_gone_made: with JSON and the crate's own writers, in terms of the metadata that the author has made."}
]}
