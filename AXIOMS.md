# Axioms

What each theorem of MANIFEST.json depends on, as reported by Lean (`#print axioms`); written by tools/mkaxioms.py.

## none (5 theorems)

`Ls.C48_depth`, `Fork.C56_binding`, `Rerun.C80_false_pos`, `Cluster.C90_equal_partial`, `Objects.C95_hash`

## propext (111 theorems)

`C01_errors_forwarded`, `C02_map_exact`, `C02_select_exact`, `C03_head_zero`, `C05_reverse`, `C05_reverse_flush_again`, `C08_overlap_empty`, `C12_false`, `C12_group_false`, `C14_item`, `C19_args_setup`, `C21_false_visible_missing`, `C21_false_visible_extra`, `C24_gather_partial`, `C24_gather_lossless`, `C24_first`, `C24_first_runs_on`, `C24_first_raises`, `C28_refused`, `C29_false_killed_inside`, `C35_false_kwargs`, `C35_false_default`, `Grouped.unique`, `C39_dangling_false`, `WsLock.C40_own`, `PickleFile.C43_not_stored`, `DirStack.C44_printed`, `DirStack.C44_cd`, `DirStack.C44_cd_refused`, `DirStack.C44_pushd`, `DirStack.C44_pushd_refused`, `DirStack.C44_swap`, `DirStack.C44_start`, `DirStack.C44_false_deleted`, `DirStack.C44_false_lost`, `DirStack.C44_false_popd`, `C46_false`, `History.C47_stable`, `Ls.C48_false_inode`, `Read.C49_record`, `Version.C50_false`, `Fork.C56_too_many_params`, `Bash.C57_lines_unique`, `Bash.C57_no_input`, `Bash.C57_false_no_items`, `WriteOp.C58_partial`, `WriteOp.C58_unique`, `WriteOp.C58_append`, `WriteOp.C58_refused`, `WriteOp.C58_accepted`, `WriteOp.C58_false_error`, `Main.C59_order_partial`, `Main.C59_next`, `CliArgs.C61_false_int`, `CliArgs.C61_false_stdin`, `WsDisk.C65_delete_current`, `WsDisk.C65_false_leftover`, `WsDisk.C66_example_several`, `WsDisk.C66_example`, `WsDisk.C66_false_torn`, `WsDisk.C66_false_list`, `Filenames.C68_false_root_twice`, `Filenames.C68_false_same_file_twice`, `Filenames.C68_false_cwd_pattern`, `Filenames.C68_false_backslash`, `Filenames.C68_false_tilde_name`, `Filenames.C68_false_home_up`, `Filenames.C68_false_two_slashes`, `Sql.C69_false_blank`, `Shell.C70_unambiguous`, `Shell.C70_download_false`, `EnvOp.C78_failure`, `EnvOp.C78_refused`, `Rerun.C80_map`, `Rerun.C80_select`, `Rerun.C80_intersect_copies`, `Rerun.C80_pos_copies`, `Rerun.C80_false_reverse`, `Rerun.C80_false_reverse_args`, `Rerun.C80_false_intersect`, `Rerun.C80_false_difference`, `Rerun.C80_false_filter`, `Rerun.C80_false_join`, `Rerun.C80_false_case`, `Rerun.C80_false_case_variable`, `Rerun.C80_false_sudo`, `Ps.C82_false_empty`, `Ps.C82_false_api`, `Edit.C83_lines`, `Edit.C83_false_api`, `Cast.C86_names_partial`, `Cast.C86_false_names`, `Color.C88_dir_workspace`, `Color.C88_root`, `Color.C88_false_type`, `Cluster.C90_cluster`, `Cluster.C90_refused`, `Cluster.C90_false_equal`, `Cluster.C90_false_pair`, `Cluster.C90_false_late`, `Objects.C95_equal`, `Objects.C95_false_other`, `Objects.C95_false_history`, `Objects.C95_false_mixed`, `Objects.C95_false_consecutive`, `Session.C96_change`, `Session.C96_script`, `Session.C96_unreadable`, `Session.C96_false_kill`, `Session.C96_false_forever`, `Session.C96_false_locked`

## propext, Quot.sound (253 theorems)

`C01_push_eq_staged`, `C01_obs`, `C01_command`, `C01_chain`, `C01_errors_transparent`, `C02_rejected_item`, `C02_map`, `C02_select`, `C02_window`, `C03_head_pos`, `C03_head_neg`, `C03_head_partition`, `C04_tail_pos`, `C04_tail_neg`, `C04_tail_zero`, `C04_tail_partition`, `C05_reverse_reverse`, `C06_sort_failure`, `C06_sort_outcomes`, `C06_sort_incomparable`, `C07_unique`, `C07_unique_unhashable`, `C07_unique_consecutive`, `C08_overlap_streaming`, `C08_setup_total`, `C09_disjoint`, `C09_disjoint_zero`, `C10_predicate`, `C10_blocks_unique`, `C11_red_short`, `C12_partial`, `C13_choice`, `C14_expand`, `C14_expand_exists`, `C14_expand_position`, `C14_expand_negative`, `C14_squish`, `C15_union`, `C15_difference`, `C15_difference_bag`, `C15_intersect`, `C15_intersect_bag`, `C15_intersect_no_args`, `C15_difference_failure`, `C15_difference_unhashable`, `C15_intersect_failure`, `C15_union_failure`, `C16_join`, `C16_failure`, `C16_empty_item`, `C17_filter`, `C17_filter_partition`, `C17_compare_raises`, `C17_failure`, `C18_branch`, `C19_args_all`, `C20_gen`, `C20_gen_endless`, `C21_partial`, `C21_false_tail`, `C21_false_args`, `C21_false_union`, `C21_false_overlap`, `C22_must_not_be_first`, `C22_cleanup`, `C22_cleanup_failing`, `C22_setup_failure`, `C22_order`, `C22_setup_stops`, `C22_custom_stops`, `C23_or`, `C23_concat`, `C23_assoc`, `C23_right_unchanged_partial`, `C23_false`, `C23_false_reuse`, `C24_false`, `C25_nested_partial`, `C25_false_delete`, `C26_enter`, `C26_assign`, `C27_partial`, `C27_false`, `C28_partial`, `C28_not_refused`, `C28_false`, `C29_partial`, `C29_frame`, `C29_false_delete`, `C29_false_import`, `C29_false_killed`, `C29_false_pipeline`, `C32_matching`, `C32_unmatched_partial`, `C32_accepted`, `C35_header`, `C35_partial`, `C35_prefix`, `C35_false_starred`, `C36_commands`, `C36_lines_exist`, `C36_lossless`, `C36_roundtrip`, `C38_expand`, `C38_combined`, `C39_call`, `C39_call_conv`, `C39_unknown_false`, `WsLock.C40_partial`, `WsLock.C40_no_crash_partial`, `WsLock.C40_false_validate`, `WsLock.C40_false_child`, `WsLock.C41_false`, `PickleFile.C42_one_writer`, `PickleFile.C42_partial`, `PickleFile.C42_false`, `PickleFile.C42_false_close`, `PickleFile.C43_false_append`, `PickleFile.C43_false_failed`, `DirStack.C44_partial`, `DirStack.C44_failed`, `Jobs.C45_one_foreground`, `Jobs.C45_dead_stays`, `Jobs.C45_removed`, `Jobs.C45_acts_only`, `Jobs.C45_prompt`, `Jobs.C45_ctrlC`, `Jobs.C45_false_number`, `Jobs.C45_false_spawn`, `Jobs.C45_false_ctrlC`, `C46_partial`, `History.C47_refused`, `History.C47_last`, `History.C47_session`, `Ls.C48_deterministic`, `Ls.C48_kinds`, `Read.C49_lines`, `C51_partial`, `C51_assigned`, `C51_deleted`, `C51_false_alias`, `C51_false_param`, `C51_false_import`, `Storage.C53_recognized`, `Storage.C53_old_format`, `Fork.C56_thread_ids`, `Fork.C56_hang`, `Fork.C56_false`, `Fork.C56_false_late`, `Fork.C56_false_hang`, `Bash.C57_prefix`, `Bash.C57_complete_partial`, `Bash.C57_input`, `WriteOp.C58_items`, `WriteOp.C58_refused_first`, `Main.C59_recalled`, `Main.C59_startup`, `Main.C59_end`, `Main.C59_false_modified`, `Main.C59_script`, `Main.C59_false_script`, `Main.C60_text`, `Main.C60_false_blank`, `CliArgs.C61_parse`, `CliArgs.C61_accepted`, `CliArgs.C61_unique`, `CliArgs.C61_lossless`, `WsDisk.C65_new_refused`, `WsDisk.C65_delete_missing`, `WsDisk.C66_list`, `Tab.C67_offers`, `Tab.C67_quoted_offers_partial`, `Tab.C67_quoted_accepted_partial`, `Tab.C67_flags`, `Tab.C67_users`, `Tab.C67_topics`, `Sql.C69_running_partial`, `Sql.C69_ended_partial`, `Sql.C69_all_or_nothing_partial`, `Sql.C69_output_partial`, `Sql.C69_failure_partial`, `Sql.C69_setup`, `Sql.C69_classify`, `Sql.C69_example`, `Sql.C69_example_commit`, `Sql.C69_false_args`, `Sql.C69_false_select_star`, `Sql.C69_false_late_failure`, `Shell.C70_quote`, `Shell.C70_files`, `Shell.C70_quote_injective`, `Help.C73_runs`, `Timer.C74_order`, `Timer.C74_spacing`, `Timer.C74_latest`, `Timer.C74_none_lost`, `EnvOp.C78_module`, `EnvOp.C78_symbol`, `EnvOp.C78_star`, `Remote.C79_false_sudo`, `Remote.C79_false_unreached`, `Remote.C79_false_changed`, `Rerun.C80_head`, `Rerun.C80_tail`, `Rerun.C80_unique`, `Rerun.C80_unique_consecutive`, `Rerun.C80_window_predicate`, `Rerun.C80_window_overlap`, `Rerun.C80_window_disjoint`, `Rerun.C80_red`, `Rerun.C80_red_group`, `Rerun.C80_sort`, `Rerun.C80_union`, `Rerun.C80_join`, `Rerun.C80_case`, `Rerun.C80_difference`, `Rerun.C80_filter`, `Rerun.C80_pipeline`, `Rerun.C80_pipeline_first`, `FileObj.C81_mode`, `FileObj.C81_base`, `FileObj.C81_aligned`, `FileObj.C81_false_types`, `Ps.C82_ps`, `Ps.C82_refused`, `Ps.C82_again`, `Ps.C82_false_hidden`, `Ps.C82_false_api_three`, `Edit.C83_false_lines`, `JsonUtil.C84_parse`, `Reduce.C85_at_once`, `Reduce.C85_kept_partial`, `Reduce.C85_false_kept`, `Color.C87_none`, `Color.C87_false_range`, `Color.C88_default`, `Color.C88_dir`, `Color.C88_dir_distinct`, `Color.C88_false_kill`, `Color.C88_false_prefix`, `Cluster.C90_use`, `Objects.C95_order`, `Objects.C95_set`, `Objects.C95_unique`, `Objects.C95_unique_shape`, `Objects.C95_consecutive`, `Session.C96_orderly`, `Session.C96_released`, `Session.C96_ends`, `Session.C96_false_handlers`, `Session.C96_false_default`, `Session.C96_false_startup_ws`, `Session.C96_false_again`

## propext, Classical.choice, Quot.sound (338 theorems)

`C06_sort`, `C06_sort_kinds`, `C07_unique_spec`, `C08_overlap`, `C08_overlap_count`, `C08_setup`, `C11_red`, `C11_red_total`, `C11_red_incremental`, `C13_group`, `C13_group_incremental`, `C18_dest_unique`, `C18_case`, `C19_args`, `C19_batches`, `C20_negative_pad`, `C20_gen_pad`, `C20_pad_order`, `C20_pad_refused`, `C22_must_be_first`, `C25_partial`, `C25_false`, `C26_partial`, `C26_false`, `C27_closes`, `C28_false_host`, `C28_false_param`, `C30_single_quoted`, `C30_double_quoted`, `C30_double_quoted_verbatim_partial`, `C30_escaped`, `C30_unterminated_partial`, `C30_double_backslash_false`, `C30_unterminated_false`, `C30_blanks`, `C31_word`, `C31_word_complete`, `C31_shell_tokens`, `C32_unmatched_close`, `C32_unmatched_close_adjacent`, `C32_unmatched_false`, `C33_roundtrip`, `C33_spacing`, `C33_terminates`, `C33_excess`, `C33_unambiguous`, `C33_comment_false`, `C33_hash_false`, `C34_redirection`, `C35_no_header`, `C37_parse`, `C37_unique`, `C39_bindings`, `C39_partial`, `WsLock.C40_frame`, `WsLock.C41_partial`, `PickleFile.C43_partial`, `PickleFile.C43_store_load`, `PickleFile.C43_crash`, `PickleFile.C43_crash_flushed`, `DirStack.C44_push_pop`, `Jobs.C45_state_partial`, `History.C47_shown`, `History.C47_recall`, `Ls.C48_ends`, `Ls.C48_once`, `Ls.C48_sound`, `Ls.C48_complete`, `Ls.C48_complete_one`, `Ls.C48_complete_deep`, `Ls.C48_denied`, `Ls.C48_order`, `Ls.C48_order_zero`, `Read.C49_text`, `Read.C49_csv_partial`, `Read.C49_skip_partial`, `Read.C49_headings_partial`, `Read.C49_roundtrip_partial`, `Read.C49_files_partial`, `Read.C49_false_names`, `Read.C49_false_blank`, `Read.C49_false_newline`, `Read.C49_false_empty`, `Version.C50_partial`, `Version.C50_history_partial`, `Version.C50_extended_partial`, `Version.C50_first_partial`, `C51_job`, `C52_partial`, `C52_plain`, `C52_alone`, `C52_false_quote`, `C52_false_brace`, `Storage.C53_original`, `Storage.C53_xdg`, `Storage.C53_ws1`, `Storage.C53_ws2`, `Storage.C53_ws3`, `Storage.C53_current`, `Storage.C53_upgraded`, `Storage.C53_false_cut`, `Storage.C53_again`, `Storage.C53_original_startup`, `Storage.C53_default_ws1`, `Storage.C53_named_ws1`, `Storage.C53_named_ws2`, `Storage.C53_default_ws2`, `Storage.C53_only_histories`, `Storage.C53_histories`, `Storage.C53_version`, `Storage.C53_fresh`, `Storage.C53_fresh_again`, `Storage.C53_false_cleared`, `Storage.C53_false_workspace`, `Storage.C54_no_loss`, `Storage.C54_workspaces`, `Storage.C54_startup`, `Storage.C54_false_conflict`, `Storage.C55_current`, `Storage.C55_ws3_partial`, `Storage.C55_stuck`, `Storage.C55_false_fresh`, `Storage.C55_false_original`, `Storage.C55_false_others`, `Storage.C55_false_history`, `Storage.C55_false_skipped`, `Fork.C56_prefix`, `Fork.C56_single_partial`, `Fork.C56_balanced_partial`, `Fork.C56_false_error`, `Bash.C57_ends`, `Bash.C57_false_background`, `Bash.C57_false_race`, `Main.C60_partial`, `Main.C60_source`, `CliArgs.C61_declared`, `CliArgs.C61_ambiguous`, `C62_names_partial`, `C62_false_pipeline_arg`, `C62_false_syntax`, `C62_false_hijack`, `C62_false_append`, `C62_false_quoted`, `C63_typed_partial`, `C63_false_interactive`, `C63_false_blank`, `WsDisk.C64_start`, `WsDisk.C64_again`, `WsDisk.C64_interrupted`, `WsDisk.C64_no_loss`, `WsDisk.C64_example`, `WsDisk.C64_false_default`, `WsDisk.C64_false_default_two`, `WsDisk.C64_false_file`, `WsDisk.C64_false_marker`, `WsDisk.C64_false_stray`, `WsDisk.C65_new`, `WsDisk.C65_delete`, `WsDisk.C65_delete_in_use`, `WsDisk.C65_delete_several`, `WsDisk.C65_new_interrupted`, `WsDisk.C65_delete_interrupted`, `WsDisk.C65_example`, `WsDisk.C65_false_default`, `WsDisk.C66_reopen`, `WsDisk.C66_close`, `WsDisk.C66_interrupted_partial`, `WsDisk.C66_open_in_use`, `WsDisk.C66_open_several`, `Tab.C67_accepted_partial`, `Tab.C67_read`, `Tab.C67_quoted_read_partial`, `Tab.C67_op_all`, `Tab.C67_op_typed`, `Tab.C67_select`, `Tab.C67_select_help`, `Tab.C67_example`, `Tab.C67_example_quoted`, `Tab.C67_false_typable`, `Tab.C67_false_quote`, `Tab.C67_false_backslash`, `Tab.C67_false_lone`, `Tab.C67_false_escaped_directory`, `Tab.C67_false_help`, `Tab.C67_false_error`, `Filenames.C68_paths_partial`, `Filenames.C68_name_partial`, `Filenames.C68_example`, `Shell.C70_upload_partial`, `Shell.C70_download_partial`, `Shell.C70_remote`, `Shell.C70_sudo_partial`, `Shell.C70_listing_partial`, `Shell.C70_upload_false`, `Shell.C70_sudo_false`, `Shell.C70_listing_false`, `Shell.C70_example`, `Api.C71_partial`, `Api.C71_others_partial`, `Api.C71_exclusive_partial`, `Api.C71_pad_false`, `Api.C71_clear_false`, `Api.C71_depth_false`, `Api.C71_filename_false`, `Api.C71_flaglike_false`, `Exec.C72_command`, `Help.C73_help`, `Timer.C74_progress`, `EnvVals.C75_partial`, `EnvVals.C75_command`, `EnvVals.C75_false_order`, `EnvVals.C75_false_stale`, `EnvVals.C75_false_method`, `EnvVals.C75_false_alias`, `EnvVals.C75_false_unpicklable`, `EnvOp.C76_partial`, `EnvOp.C76_import`, `EnvOp.C76_refused`, `EnvOp.C76_false`, `EnvOp.C77_list`, `EnvOp.C77_var`, `EnvOp.C77_delete`, `EnvOp.C77_false_none`, `EnvOp.C78_false_package`, `EnvOp.C78_false_all`, `EnvOp.C78_false_submodule`, `Remote.C79_remote`, `Remote.C79_sudo`, `Remote.C79_sudo_general`, `Remote.C79_false_print`, `Remote.C79_false_swallow`, `Remote.C79_false_twice`, `Rerun.C80_args`, `Rerun.C80_case_refused`, `FileObj.C81_listing`, `FileObj.C81_absolute`, `FileObj.C81_colors`, `FileObj.C81_widths`, `FileObj.C81_transport`, `FileObj.C81_transport_all`, `FileObj.C81_false_aligned`, `FileObj.C81_false_link`, `FileObj.C81_false_owner`, `Ps.C82_false_zero`, `Edit.C83_edit`, `Edit.C83_last`, `Edit.C83_other`, `Edit.C83_startup`, `Edit.C83_example`, `Edit.C83_false_empty`, `Edit.C83_false_number`, `Edit.C83_false_prefix`, `JsonUtil.C84_last`, `JsonUtil.C84_roundtrip`, `JsonUtil.C84_roundtrip_plain`, `JsonUtil.C84_format`, `JsonUtil.C84_refused`, `JsonUtil.C84_expand`, `JsonUtil.C84_example`, `JsonUtil.C84_false_items`, `JsonUtil.C84_false_kind`, `Reduce.C85_red`, `Reduce.C85_incremental`, `Reduce.C85_group`, `Reduce.C85_squish`, `Reduce.C85_false_and`, `Reduce.C85_false_none`, `Reduce.C85_false_count`, `Cast.C86_cast`, `Cast.C86_unique`, `Color.C87_shown`, `Color.C87_distinct`, `Color.C87_codes`, `Color.C87_false_nested`, `Color.C88_prompt`, `Color.C89_set`, `Color.C89_sound`, `Color.C89_extension`, `Color.C89_false_new`, `Color.C89_false_unchecked`, `Cluster.C90_shown`, `WsOp.C91_requests`, `WsOp.C91_one_flag`, `WsOp.C91_run`, `WsOp.C91_example`, `WsOp.C91_false_extra`, `WsOp.C91_false_api_name`, `WsOp.C91_false_api_export`, `Locations.C92_base`, `Locations.C92_layout`, `Locations.C92_inside`, `Locations.C92_distinct`, `Locations.C92_default_apart`, `Locations.C92_example`, `Locations.C92_false_empty`, `Locations.C92_false_nested`, `Locations.C92_false_default`, `Locations.C92_false_absolute`, `Locations.C92_false_dotdot`, `Locations.C92_false_same`, `Trace.C93_requests`, `Trace.C93_here`, `Trace.C93_started`, `Trace.C93_forked`, `Trace.C93_refused`, `Trace.C93_initially`, `Trace.C93_append`, `Trace.C93_status`, `Trace.C93_example`, `Trace.C93_false_here`, `Trace.C93_false_status_job`, `Trace.C93_false_status_file`, `Trace.C93_false_cd`, `Trace.C93_false_cd_job`, `Exec.C94_nested_partial`, `Exec.C94_false_union`, `Objects.C95_compare`, `Objects.C95_sort`, `Help.C97_help_topics`, `Help.C97_shipped`, `Help.C97_front_page`, `Help.C97_operators`, `Help.C97_false_assign`, `Help.C97_false_front_page`, `Help.C97_false_reference`, `Help.C97_false_function`, `Render.C98_colours`, `Render.C98_columns`, `Render.C98_readable`, `Render.C98_history`, `Render.C98_false_columns`, `Render.C98_false_history_file`, `SchemeShow.C99_colours`, `SchemeShow.C99_display`, `SchemeShow.C99_sorted`, `SchemeShow.C99_color`, `SchemeShow.C99_default`, `SchemeShow.C99_prompt`
