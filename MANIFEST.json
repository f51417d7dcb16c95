{
 "claims": [
  {
   "property": "C01",
   "status": "proved",
   "theorems": [
    "Marcel.C01_push_eq_staged",
    "Marcel.C01_obs",
    "Marcel.C01_command",
    "Marcel.C01_chain",
    "Marcel.C01_errors_transparent",
    "Marcel.C01_errors_forwarded"
   ],
   "note": ""
  },
  {
   "property": "C02",
   "status": "proved",
   "theorems": [
    "Marcel.C02_rejected_item",
    "Marcel.C02_map",
    "Marcel.C02_select",
    "Marcel.C02_window",
    "Marcel.C02_map_exact",
    "Marcel.C02_select_exact"
   ],
   "note": ""
  },
  {
   "property": "C03",
   "status": "proved",
   "theorems": [
    "Marcel.C03_head_pos",
    "Marcel.C03_head_neg",
    "Marcel.C03_head_zero",
    "Marcel.C03_head_partition"
   ],
   "note": ""
  },
  {
   "property": "C04",
   "status": "proved",
   "theorems": [
    "Marcel.C04_tail_pos",
    "Marcel.C04_tail_neg",
    "Marcel.C04_tail_zero",
    "Marcel.C04_tail_partition"
   ],
   "note": ""
  },
  {
   "property": "C05",
   "status": "proved",
   "theorems": [
    "Marcel.C05_reverse",
    "Marcel.C05_reverse_reverse",
    "Marcel.C05_reverse_flush_again"
   ],
   "note": ""
  },
  {
   "property": "C06",
   "status": "proved",
   "theorems": [
    "Marcel.C06_sort",
    "Marcel.C06_sort_failure",
    "Marcel.C06_sort_outcomes",
    "Marcel.C06_sort_kinds",
    "Marcel.C06_sort_incomparable"
   ],
   "note": ""
  },
  {
   "property": "C07",
   "status": "proved",
   "theorems": [
    "Marcel.C07_unique",
    "Marcel.C07_unique_spec",
    "Marcel.C07_unique_unhashable",
    "Marcel.C07_unique_consecutive"
   ],
   "note": ""
  },
  {
   "property": "C08",
   "status": "proved",
   "theorems": [
    "Marcel.C08_overlap",
    "Marcel.C08_overlap_count",
    "Marcel.C08_overlap_streaming",
    "Marcel.C08_overlap_empty",
    "Marcel.C08_setup",
    "Marcel.C08_setup_total"
   ],
   "note": ""
  },
  {
   "property": "C09",
   "status": "proved",
   "theorems": [
    "Marcel.C09_disjoint",
    "Marcel.C09_disjoint_zero"
   ],
   "note": ""
  },
  {
   "property": "C10",
   "status": "proved",
   "theorems": [
    "Marcel.C10_predicate",
    "Marcel.C10_blocks_unique"
   ],
   "note": ""
  },
  {
   "property": "C11",
   "status": "proved",
   "theorems": [
    "Marcel.C11_red",
    "Marcel.C11_red_total",
    "Marcel.C11_red_incremental",
    "Marcel.C11_red_short"
   ],
   "note": ""
  },
  {
   "property": "C12",
   "status": "partial",
   "theorems": [
    "Marcel.C12_partial",
    "Marcel.C12_false",
    "Marcel.C12_group_false"
   ],
   "note": "The code violates the property when a function other than the first fails: refuted by C12_false/C12_group_false; C12_partial is the part that holds."
  },
  {
   "property": "C13",
   "status": "proved",
   "theorems": [
    "Marcel.C13_group",
    "Marcel.C13_group_incremental",
    "Marcel.C13_choice",
    "Marcel.C11_red_short"
   ],
   "note": ""
  },
  {
   "property": "C14",
   "status": "proved",
   "theorems": [
    "Marcel.C14_expand",
    "Marcel.C14_expand_exists",
    "Marcel.C14_item",
    "Marcel.C14_expand_position",
    "Marcel.C14_expand_negative",
    "Marcel.C14_squish"
   ],
   "note": ""
  },
  {
   "property": "C15",
   "status": "proved",
   "theorems": [
    "Marcel.C15_union",
    "Marcel.C15_difference",
    "Marcel.C15_difference_bag",
    "Marcel.C15_intersect",
    "Marcel.C15_intersect_bag",
    "Marcel.C15_intersect_no_args",
    "Marcel.C15_difference_failure",
    "Marcel.C15_difference_unhashable",
    "Marcel.C15_intersect_failure",
    "Marcel.C15_union_failure"
   ],
   "note": ""
  },
  {
   "property": "C16",
   "status": "proved",
   "theorems": [
    "Marcel.C16_join",
    "Marcel.C16_failure",
    "Marcel.C16_empty_item"
   ],
   "note": ""
  },
  {
   "property": "C17",
   "status": "proved",
   "theorems": [
    "Marcel.C17_filter",
    "Marcel.C17_filter_partition",
    "Marcel.C17_compare_raises",
    "Marcel.C17_failure"
   ],
   "note": ""
  },
  {
   "property": "C18",
   "status": "proved",
   "theorems": [
    "Marcel.C18_dest_unique",
    "Marcel.C18_case",
    "Marcel.C18_branch"
   ],
   "note": ""
  },
  {
   "property": "C19",
   "status": "proved",
   "theorems": [
    "Marcel.C19_args",
    "Marcel.C19_args_all",
    "Marcel.C19_args_setup",
    "Marcel.C19_batches"
   ],
   "note": ""
  },
  {
   "property": "C20",
   "status": "proved",
   "theorems": [
    "Marcel.C20_gen",
    "Marcel.C20_gen_endless",
    "Marcel.C20_negative_pad",
    "Marcel.C20_gen_pad",
    "Marcel.C20_pad_order",
    "Marcel.C20_pad_refused"
   ],
   "note": ""
  },
  {
   "property": "C21",
   "status": "partial",
   "theorems": [
    "Marcel.C21_partial",
    "Marcel.C21_false_tail",
    "Marcel.C21_false_args",
    "Marcel.C21_false_union",
    "Marcel.C21_false_overlap",
    "Marcel.C21_false_visible_missing",
    "Marcel.C21_false_visible_extra"
   ],
   "note": "The code violates the property for tail, args, union and window -o (refuted by the C21_false theorems, including visible consequences); C21_partial proves it for every pipeline of the other modelled operators."
  },
  {
   "property": "C22",
   "status": "proved",
   "theorems": [
    "Marcel.C22_must_be_first",
    "Marcel.C22_must_not_be_first",
    "Marcel.C22_cleanup",
    "Marcel.C22_cleanup_failing",
    "Marcel.C22_setup_failure",
    "Marcel.C22_order",
    "Marcel.C22_setup_stops",
    "Marcel.C22_custom_stops"
   ],
   "note": ""
  },
  {
   "property": "C23",
   "status": "partial",
   "theorems": [
    "Marcel.C23_or",
    "Marcel.C23_concat",
    "Marcel.C23_assoc",
    "Marcel.C23_right_unchanged_partial",
    "Marcel.C23_false",
    "Marcel.C23_false_reuse"
   ],
   "note": "Concatenation and associativity are proved; that the left operand is not changed is false of the code (C23_false), only the right operand and other objects are unchanged."
  },
  {
   "property": "C24",
   "status": "partial",
   "theorems": [
    "Marcel.C24_gather_partial",
    "Marcel.C24_gather_lossless",
    "Marcel.C24_first",
    "Marcel.C24_false",
    "Marcel.C24_first_runs_on",
    "Marcel.C24_first_raises"
   ],
   "note": "Everything but the errors argument is proved; errors is ignored by the code (C24_false)."
  },
  {
   "property": "C25",
   "status": "partial",
   "theorems": [
    "Marcel.C25_partial",
    "Marcel.C25_nested_partial",
    "Marcel.C25_false",
    "Marcel.C25_false_delete"
   ],
   "note": "The code violates the property when a parameter shadows a global or the pipeline deletes its own parameter (C25_false, C25_false_delete); C25_partial proves it in all other cases."
  },
  {
   "property": "C26",
   "status": "partial",
   "theorems": [
    "Marcel.C26_partial",
    "Marcel.C26_enter",
    "Marcel.C26_assign",
    "Marcel.C26_false"
   ],
   "note": "Fails when a parameter shadowing a global has been popped (C26_false); proved for all disciplined programs."
  },
  {
   "property": "C27",
   "status": "partial",
   "theorems": [
    "Marcel.C27_partial",
    "Marcel.C27_closes",
    "Marcel.C27_false"
   ],
   "note": "False of the code for deleted variables, which come back (C27_false); proved for all others not used as parameters, for all histories of commands."
  },
  {
   "property": "C28",
   "status": "partial",
   "theorems": [
    "Marcel.C28_partial",
    "Marcel.C28_refused",
    "Marcel.C28_not_refused",
    "Marcel.C28_false",
    "Marcel.C28_false_host",
    "Marcel.C28_false_param"
   ],
   "note": "False of the interactive shell and scripts, which never enforce immutability (C28_false), for HOST and ITALIC (C28_false_host) and for parameters (C28_false_param); proved with enforcement for all other commands."
  },
  {
   "property": "C29",
   "status": "partial",
   "theorems": [
    "Marcel.C29_partial",
    "Marcel.C29_frame",
    "Marcel.C29_false_delete",
    "Marcel.C29_false_import",
    "Marcel.C29_false_killed",
    "Marcel.C29_false_killed_inside",
    "Marcel.C29_false_pipeline"
   ],
   "note": "False of the code for deletions, imports, killed commands and pipeline values (C29_false_*); proved for all other variables of all commands."
  },
  {
   "property": "C30",
   "status": "partial",
   "theorems": [
    "Marcel.C30_single_quoted",
    "Marcel.C30_double_quoted",
    "Marcel.C30_double_quoted_verbatim_partial",
    "Marcel.C30_escaped",
    "Marcel.C30_unterminated_partial",
    "Marcel.C30_double_backslash_false",
    "Marcel.C30_unterminated_false",
    "Marcel.C30_blanks"
   ],
   "note": "Single quotes and escaping are proved for all texts. In double quotes two backslashes are kept as one (C30_double_backslash_false), so only texts without that are read verbatim. Unterminated literals: a lone quote is accepted as the empty string (C30_unterminated_false); otherwise proved."
  },
  {
   "property": "C31",
   "status": "proved",
   "theorems": [
    "Marcel.C31_word",
    "Marcel.C31_word_complete",
    "Marcel.C31_shell_tokens"
   ],
   "note": ""
  },
  {
   "property": "C32",
   "status": "partial",
   "theorems": [
    "Marcel.C32_matching",
    "Marcel.C32_unmatched_partial",
    "Marcel.C32_accepted",
    "Marcel.C32_unmatched_close",
    "Marcel.C32_unmatched_close_adjacent",
    "Marcel.C32_unmatched_false"
   ],
   "note": "Balanced expressions end at the matching parenthesis (C32_matching). The converse is false: an expression with missing closing parentheses is accepted if the text ends in ) (C32_unmatched_false); C32_unmatched_partial: otherwise it is refused."
  },
  {
   "property": "C33",
   "status": "proved",
   "theorems": [
    "Marcel.C33_roundtrip",
    "Marcel.C33_spacing",
    "Marcel.C33_terminates",
    "Marcel.C33_excess",
    "Marcel.C33_unambiguous",
    "Marcel.C33_comment_false",
    "Marcel.C33_hash_false"
   ],
   "note": "However the command is spaced (Written) and commented. Arguments of executables may contain = , : but not # (C33_hash_false: in the first argument that is an internal error). C33_comment_false: a comment directly after a word is an internal error."
  },
  {
   "property": "C34",
   "status": "proved",
   "theorems": [
    "Marcel.C34_redirection"
   ],
   "note": ""
  },
  {
   "property": "C35",
   "status": "partial",
   "theorems": [
    "Marcel.C35_header",
    "Marcel.C35_partial",
    "Marcel.C35_no_header",
    "Marcel.C35_prefix",
    "Marcel.C35_false_kwargs",
    "Marcel.C35_false_default",
    "Marcel.C35_false_starred"
   ],
   "note": "Proved for headers of plain and starred names. The code does not recognize **kwargs and default values, and takes a header of only starred names to have no parameters (C35_false_*)."
  },
  {
   "property": "C36",
   "status": "proved",
   "theorems": [
    "Marcel.C36_commands",
    "Marcel.C36_lines_exist",
    "Marcel.C36_lossless",
    "Marcel.C36_roundtrip",
    "Marcel.Grouped.unique"
   ],
   "note": ""
  },
  {
   "property": "C37",
   "status": "proved",
   "theorems": [
    "Marcel.C37_parse",
    "Marcel.C37_unique"
   ],
   "note": "For all declarations that pass validation and all argument lists. The conversion functions are parameters. A one-value flag given the Python value True is refused (Use.OK.one)."
  },
  {
   "property": "C38",
   "status": "proved",
   "theorems": [
    "Marcel.C38_expand",
    "Marcel.C38_combined"
   ],
   "note": ""
  },
  {
   "property": "C39",
   "status": "partial",
   "theorems": [
    "Marcel.C39_call",
    "Marcel.C39_call_conv",
    "Marcel.C39_bindings",
    "Marcel.C39_partial",
    "Marcel.C39_unknown_false",
    "Marcel.C39_dangling_false"
   ],
   "note": "Binding is as claimed, except that a named argument the pipeline does not have is accepted (C39_unknown_false) and a parameter name without value is silently ignored (C39_dangling_false)."
  },
  {
   "property": "C40",
   "status": "partial",
   "theorems": [
    "Marcel.WsLock.C40_partial",
    "Marcel.WsLock.C40_no_crash_partial",
    "Marcel.WsLock.C40_frame",
    "Marcel.WsLock.C40_own",
    "Marcel.WsLock.C40_false_validate",
    "Marcel.WsLock.C40_false_child"
   ],
   "note": "Proved for all interleavings and crash points in which not two processes create a marker at once (in particular for all interleavings without crashes and deletions). False otherwise: two processes validating after a crash can each create a marker (C40_false_validate); a child process shares its parent's workspace (C40_false_child)."
  },
  {
   "property": "C41",
   "status": "partial",
   "theorems": [
    "Marcel.WsLock.C41_partial",
    "Marcel.WsLock.C41_false"
   ],
   "note": "After any history, once the others are dead, validating and then opening succeeds. Opening without validating first fails the first time after a crash (C41_false)."
  },
  {
   "property": "C42",
   "status": "partial",
   "theorems": [
    "Marcel.PickleFile.C42_one_writer",
    "Marcel.PickleFile.C42_partial",
    "Marcel.PickleFile.C42_false",
    "Marcel.PickleFile.C42_false_close"
   ],
   "note": "At most one writer: proved for all histories. No writer while a reader is in use: proved for histories without two simultaneous readers of the file; false with two (C42_false), and closing one reader closes the other (C42_false_close)."
  },
  {
   "property": "C43",
   "status": "partial",
   "theorems": [
    "Marcel.PickleFile.C43_partial",
    "Marcel.PickleFile.C43_not_stored",
    "Marcel.PickleFile.C43_store_load",
    "Marcel.PickleFile.C43_crash",
    "Marcel.PickleFile.C43_crash_flushed",
    "Marcel.PickleFile.C43_false_append",
    "Marcel.PickleFile.C43_false_failed"
   ],
   "note": "Proved for all histories of stores, appends and loads, all buffering and all crash points, except appends of streams containing the same object twice, which are loaded wrongly (C43_false_append). A failing store destroys what was there (C43_false_failed)."
  },
  {
   "property": "C44",
   "status": "partial",
   "theorems": [
    "Marcel.DirStack.C44_partial",
    "Marcel.DirStack.C44_failed",
    "Marcel.DirStack.C44_push_pop",
    "Marcel.DirStack.C44_printed",
    "Marcel.DirStack.C44_cd",
    "Marcel.DirStack.C44_cd_refused",
    "Marcel.DirStack.C44_pushd",
    "Marcel.DirStack.C44_pushd_refused",
    "Marcel.DirStack.C44_swap",
    "Marcel.DirStack.C44_start",
    "Marcel.DirStack.C44_false_deleted",
    "Marcel.DirStack.C44_false_lost",
    "Marcel.DirStack.C44_false_popd"
   ],
   "note": "Proved for all histories and all changes of the file system as long as the current directory remains; failing commands change nothing in any case. False once the current directory has been deleted (C44_false_*)."
  },
  {
   "property": "C45",
   "status": "partial",
   "theorems": [
    "Marcel.Jobs.C45_one_foreground",
    "Marcel.Jobs.C45_dead_stays",
    "Marcel.Jobs.C45_removed",
    "Marcel.Jobs.C45_acts_only",
    "Marcel.Jobs.C45_prompt",
    "Marcel.Jobs.C45_ctrlC",
    "Marcel.Jobs.C45_state_partial",
    "Marcel.Jobs.C45_false_number",
    "Marcel.Jobs.C45_false_spawn",
    "Marcel.Jobs.C45_false_ctrlC"
   ],
   "note": "All proved for every interleaving, except that the number naming a job refers to the list at the time of the command, not to the one shown (C45_false_number), and that signals between the start of a process and its registration are lost or stop it (C45_false_spawn, C45_false_ctrlC)."
  },
  {
   "property": "C46",
   "status": "partial",
   "theorems": [
    "Marcel.C46_partial",
    "Marcel.C46_false"
   ],
   "note": "Fails when a parameter is bound to a pipeline value that cannot be wrapped (C46_false: the scope leaks); proved for all other bindings."
  },
  {
   "property": "C47",
   "status": "proved",
   "theorems": [
    "Marcel.History.C47_shown",
    "Marcel.History.C47_refused",
    "Marcel.History.C47_recall",
    "Marcel.History.C47_last",
    "Marcel.History.C47_session",
    "Marcel.History.C47_stable"
   ],
   "note": "For all histories, patterns, limits and session traces. prompt_toolkit is modelled as a list, newest first."
  },
  {
   "property": "C48",
   "status": "partial",
   "theorems": [
    "Marcel.Ls.C48_ends",
    "Marcel.Ls.C48_deterministic",
    "Marcel.Ls.C48_once",
    "Marcel.Ls.C48_sound",
    "Marcel.Ls.C48_complete",
    "Marcel.Ls.C48_complete_one",
    "Marcel.Ls.C48_complete_deep",
    "Marcel.Ls.C48_denied",
    "Marcel.Ls.C48_kinds",
    "Marcel.Ls.C48_depth",
    "Marcel.Ls.C48_order",
    "Marcel.Ls.C48_order_zero",
    "Marcel.Ls.C48_false_inode"
   ],
   "note": "Proved for all trees with arbitrary symbolic links, all arguments and depths: ls ends, lists every path at most once, only what was asked for, and everything that was asked for. Only \"exactly once\" fails when files are identified by inode instead of path: a directory first reached through a symbolic link is listed again (C48_false_inode)."
  },
  {
   "property": "C49",
   "status": "partial",
   "theorems": [
    "Marcel.Read.C49_lines",
    "Marcel.Read.C49_text",
    "Marcel.Read.C49_record",
    "Marcel.Read.C49_csv_partial",
    "Marcel.Read.C49_skip_partial",
    "Marcel.Read.C49_headings_partial",
    "Marcel.Read.C49_roundtrip_partial",
    "Marcel.Read.C49_files_partial",
    "Marcel.Read.C49_false_names",
    "Marcel.Read.C49_false_blank",
    "Marcel.Read.C49_false_newline",
    "Marcel.Read.C49_false_empty"
   ],
   "note": "Text files: proved for all contents. CSV: proved for files without blank lines and without line ends in fields; false otherwise (C49_false_*)."
  },
  {
   "property": "C50",
   "status": "partial",
   "theorems": [
    "Marcel.Version.C50_partial",
    "Marcel.Version.C50_history_partial",
    "Marcel.Version.C50_extended_partial",
    "Marcel.Version.C50_first_partial",
    "Marcel.Version.C50_false"
   ],
   "note": "Proved for versions whose numbers have the same lengths; false otherwise, since versions are compared as strings (C50_false)."
  },
  {
   "property": "C51",
   "status": "partial",
   "theorems": [
    "Marcel.C51_partial",
    "Marcel.C51_assigned",
    "Marcel.C51_deleted",
    "Marcel.C51_job",
    "Marcel.C51_false_alias",
    "Marcel.C51_false_param",
    "Marcel.C51_false_import"
   ],
   "note": "Proved for a reservoir held by one name and all sequences of commands that leave it alone; exactly which file an assignment or deletion deletes. False with two names for a reservoir (C51_false_alias, C51_false_param), and an import over the variable leaks the file (C51_false_import)."
  },
  {
   "property": "C52",
   "status": "partial",
   "theorems": [
    "Marcel.C52_partial",
    "Marcel.C52_plain",
    "Marcel.C52_alone",
    "Marcel.C52_false_quote",
    "Marcel.C52_false_brace"
   ],
   "note": "The token and the source of the f-string, for all sequences of words and expressions that give a Python string; evaluation of the f-string is Python. False for words ending in a quote and words containing braces (C52_false_*)."
  },
  {
   "property": "C53",
   "status": "partial",
   "theorems": [
    "Marcel.Storage.C53_original",
    "Marcel.Storage.C53_xdg",
    "Marcel.Storage.C53_ws1",
    "Marcel.Storage.C53_ws2",
    "Marcel.Storage.C53_ws3",
    "Marcel.Storage.C53_current",
    "Marcel.Storage.C53_upgraded",
    "Marcel.Storage.C53_recognized",
    "Marcel.Storage.C53_old_format",
    "Marcel.Storage.C53_false_cut",
    "Marcel.Storage.C53_again",
    "Marcel.Storage.C53_original_startup",
    "Marcel.Storage.C53_default_ws1",
    "Marcel.Storage.C53_named_ws1",
    "Marcel.Storage.C53_named_ws2",
    "Marcel.Storage.C53_default_ws2",
    "Marcel.Storage.C53_only_histories",
    "Marcel.Storage.C53_histories",
    "Marcel.Storage.C53_version",
    "Marcel.Storage.C53_fresh",
    "Marcel.Storage.C53_fresh_again",
    "Marcel.Storage.C53_false_cleared",
    "Marcel.Storage.C53_false_workspace"
   ],
   "note": "proved for all file systems in one of the six layouts as the old versions left them; false for a workspace called workspace, and when the history of the default workspace is empty (all histories are replaced)"
  },
  {
   "property": "C54",
   "status": "partial",
   "theorems": [
    "Marcel.Storage.C54_no_loss",
    "Marcel.Storage.C54_workspaces",
    "Marcel.Storage.C54_startup",
    "Marcel.Storage.C54_false_conflict"
   ],
   "note": "proved for any number of starts interrupted anywhere, unless a startup script (or history) exists both in the home directory and in the configuration (data) directory: then one is overwritten"
  },
  {
   "property": "C55",
   "status": "partial",
   "theorems": [
    "Marcel.Storage.C55_current",
    "Marcel.Storage.C55_ws3_partial",
    "Marcel.Storage.C55_stuck",
    "Marcel.Storage.C55_false_fresh",
    "Marcel.Storage.C55_false_original",
    "Marcel.Storage.C55_false_others",
    "Marcel.Storage.C55_false_history",
    "Marcel.Storage.C55_false_skipped"
   ],
   "note": "proved for starts in the present layout (any interruption) and for the last upgrade with the default workspace listed last and no history missing; false for each upgrade and for a first start"
  },
  {
   "property": "C56",
   "status": "partial",
   "theorems": [
    "Marcel.Fork.C56_prefix",
    "Marcel.Fork.C56_single_partial",
    "Marcel.Fork.C56_balanced_partial",
    "Marcel.Fork.C56_thread_ids",
    "Marcel.Fork.C56_too_many_params",
    "Marcel.Fork.C56_binding",
    "Marcel.Fork.C56_hang",
    "Marcel.Fork.C56_false",
    "Marcel.Fork.C56_false_late",
    "Marcel.Fork.C56_false_hang",
    "Marcel.Fork.C56_false_error"
   ],
   "note": "For all interleavings nothing is repeated, reordered or made up (C56_prefix); complete for one worker, and for workers emitting equally many messages none of which is late. False otherwise: the end of a worker is counted again in every round, so output of longer or slower workers is lost (C56_false: the example of the documentation; C56_false_late), or fork hangs (C56_hang, C56_false_hang); errors arrive as items (C56_false_error)."
  },
  {
   "property": "C57",
   "status": "partial",
   "theorems": [
    "Marcel.Bash.C57_prefix",
    "Marcel.Bash.C57_lines_unique",
    "Marcel.Bash.C57_complete_partial",
    "Marcel.Bash.C57_ends",
    "Marcel.Bash.C57_input",
    "Marcel.Bash.C57_no_input",
    "Marcel.Bash.C57_false_background",
    "Marcel.Bash.C57_false_race",
    "Marcel.Bash.C57_false_no_items"
   ],
   "note": "For all behaviours and interleavings nothing is repeated, reordered or made up, and the reading thread ends. Complete for programs that leave nothing in the background, unless they write and end between select and poll; false in these two cases (C57_false_background, C57_false_race). Without items the program is not run, and the command fails (C57_false_no_items)."
  },
  {
   "property": "C58",
   "status": "partial",
   "theorems": [
    "Marcel.WriteOp.C58_partial",
    "Marcel.WriteOp.C58_unique",
    "Marcel.WriteOp.C58_append",
    "Marcel.WriteOp.C58_items",
    "Marcel.WriteOp.C58_refused",
    "Marcel.WriteOp.C58_refused_first",
    "Marcel.WriteOp.C58_accepted",
    "Marcel.WriteOp.C58_false_error"
   ],
   "note": "Proved for all streams, targets and formatting functions, except that with a formatting option an error ends the command (C58_false_error)."
  },
  {
   "property": "C59",
   "status": "partial",
   "theorems": [
    "Marcel.Main.C59_order_partial",
    "Marcel.Main.C59_recalled",
    "Marcel.Main.C59_startup",
    "Marcel.Main.C59_end",
    "Marcel.Main.C59_next",
    "Marcel.Main.C59_false_modified",
    "Marcel.Main.C59_script",
    "Marcel.Main.C59_false_script"
   ],
   "note": "Proved for sessions in which no modification of the startup script is noticed, for all behaviours of commands. False otherwise: the command typed after a modification is lost (C59_false_modified); a script that opens a workspace does not run its startup scripts (C59_false_script)."
  },
  {
   "property": "C60",
   "status": "partial",
   "theorems": [
    "Marcel.Main.C60_partial",
    "Marcel.Main.C60_text",
    "Marcel.Main.C60_false_blank",
    "Marcel.Main.C60_source"
   ],
   "note": "Proved for scripts without leading and trailing white space in lines and without blank lines except at the end. False: everything after a blank line is ignored (C60_false_blank), and a script that is named is ignored if stdin is a pipe (C60_source)."
  },
  {
   "property": "C61",
   "status": "partial",
   "theorems": [
    "Marcel.CliArgs.C61_declared",
    "Marcel.CliArgs.C61_ambiguous",
    "Marcel.CliArgs.C61_parse",
    "Marcel.CliArgs.C61_accepted",
    "Marcel.CliArgs.C61_unique",
    "Marcel.CliArgs.C61_lossless",
    "Marcel.CliArgs.C61_false_int",
    "Marcel.CliArgs.C61_false_stdin"
   ],
   "note": "Sound and complete for all declarations and command lines. False: an int flag with a value that is not a number raises ValueError instead of the usage message (C61_false_int), and the first argument is dropped if the script comes from stdin (C61_false_stdin)."
  },
  {
   "property": "C62",
   "status": "partial",
   "theorems": [
    "Marcel.C62_names_partial",
    "Marcel.C62_false_pipeline_arg",
    "Marcel.C62_false_syntax",
    "Marcel.C62_false_hijack",
    "Marcel.C62_false_append",
    "Marcel.C62_false_quoted"
   ],
   "note": "Proved for all well-formed commands, however written, unless a variable is called ls, read, bash, map, load, write or store. False: a pipeline as argument of a pipeline variable is an internal error (C62_false_pipeline_arg); variables with those names (C62_false_syntax, _hijack, _append); quoted names (C62_false_quoted)."
  },
  {
   "property": "C63",
   "status": "partial",
   "theorems": [
    "Marcel.C63_typed_partial",
    "Marcel.C63_false_interactive",
    "Marcel.C63_false_blank"
   ],
   "note": "Proved for all executables and arguments except -i, -ii, ..., --interactive and arguments ending in an escaped blank; false for these (C63_false_interactive, C63_false_blank)."
  },
  {
   "property": "C64",
   "status": "partial",
   "theorems": [
    "Marcel.WsDisk.C64_start",
    "Marcel.WsDisk.C64_again",
    "Marcel.WsDisk.C64_interrupted",
    "Marcel.WsDisk.C64_no_loss",
    "Marcel.WsDisk.C64_example",
    "Marcel.WsDisk.C64_false_default",
    "Marcel.WsDisk.C64_false_default_two",
    "Marcel.WsDisk.C64_false_file",
    "Marcel.WsDisk.C64_false_marker",
    "Marcel.WsDisk.C64_false_stray"
   ],
   "note": "Proved for all file systems whose default workspace is sound and in which what is called like a workspace is a directory, for any damage to any number of other workspaces and any crash point. False otherwise: an error in the default workspace, or a stray pickle among its reservoirs, moves all workspaces aside (C64_false_default, C64_false_default_two, C64_false_stray); a plain file with the same name in both trees, or a marker without a number, makes marcel fail at every start (C64_false_file, C64_false_marker)."
  },
  {
   "property": "C65",
   "status": "partial",
   "theorems": [
    "Marcel.WsDisk.C65_new",
    "Marcel.WsDisk.C65_new_refused",
    "Marcel.WsDisk.C65_delete",
    "Marcel.WsDisk.C65_delete_current",
    "Marcel.WsDisk.C65_delete_missing",
    "Marcel.WsDisk.C65_delete_in_use",
    "Marcel.WsDisk.C65_delete_several",
    "Marcel.WsDisk.C65_new_interrupted",
    "Marcel.WsDisk.C65_delete_interrupted",
    "Marcel.WsDisk.C65_example",
    "Marcel.WsDisk.C65_false_default",
    "Marcel.WsDisk.C65_false_leftover"
   ],
   "note": "Proved for all file systems, all names other than that of the default workspace, all crash points. False: ws --delete __DEFAULT__ is accepted (C65_false_default); files left by a failed deletion become part of a new workspace with that name (C65_false_leftover)."
  },
  {
   "property": "C66",
   "status": "partial",
   "theorems": [
    "Marcel.WsDisk.C66_reopen",
    "Marcel.WsDisk.C66_close",
    "Marcel.WsDisk.C66_interrupted_partial",
    "Marcel.WsDisk.C66_open_in_use",
    "Marcel.WsDisk.C66_open_several",
    "Marcel.WsDisk.C66_example_several",
    "Marcel.WsDisk.C66_list",
    "Marcel.WsDisk.C66_example",
    "Marcel.WsDisk.C66_false_torn",
    "Marcel.WsDisk.C66_false_list"
   ],
   "note": "Proved for all workspaces and environments; with interruptions, that each of the two files is the old one, the new one or empty. The last sentence is false: an interrupted close leaves an empty file, the next start accepts it, open and ws --list fail (C66_false_torn, C66_false_list)."
  },
  {
   "property": "C67",
   "status": "partial",
   "theorems": [
    "Marcel.Tab.C67_offers",
    "Marcel.Tab.C67_accepted_partial",
    "Marcel.Tab.C67_read",
    "Marcel.Tab.C67_quoted_offers_partial",
    "Marcel.Tab.C67_quoted_accepted_partial",
    "Marcel.Tab.C67_quoted_read_partial",
    "Marcel.Tab.C67_op_all",
    "Marcel.Tab.C67_op_typed",
    "Marcel.Tab.C67_flags",
    "Marcel.Tab.C67_users",
    "Marcel.Tab.C67_topics",
    "Marcel.Tab.C67_select",
    "Marcel.Tab.C67_select_help",
    "Marcel.Tab.C67_example",
    "Marcel.Tab.C67_example_quoted",
    "Marcel.Tab.C67_false_typable",
    "Marcel.Tab.C67_false_quote",
    "Marcel.Tab.C67_false_backslash",
    "Marcel.Tab.C67_false_lone",
    "Marcel.Tab.C67_false_escaped_directory",
    "Marcel.Tab.C67_false_help",
    "Marcel.Tab.C67_false_error"
   ],
   "note": "Proved for all words and names, if the characters still to be typed that end words are among those that are escaped, and in quotes if there is no such quote and no backslash. False otherwise (C67_false_...). Not modelled: how the kind of completion and the token are found (the parser), prompt_toolkit."
  },
  {
   "property": "C68",
   "status": "partial",
   "theorems": [
    "Marcel.Filenames.C68_paths_partial",
    "Marcel.Filenames.C68_name_partial",
    "Marcel.Filenames.C68_example",
    "Marcel.Filenames.C68_false_root_twice",
    "Marcel.Filenames.C68_false_same_file_twice",
    "Marcel.Filenames.C68_false_cwd_pattern",
    "Marcel.Filenames.C68_false_backslash",
    "Marcel.Filenames.C68_false_tilde_name",
    "Marcel.Filenames.C68_false_home_up",
    "Marcel.Filenames.C68_false_two_slashes"
   ],
   "note": "Proved for all trees and all arguments without backslashes, without ~ other than at the beginning, without .. after ~, not starting with two slashes, in a current directory without wildcard characters in its name. False in these cases, and / or a file reached by two paths are given twice (C68_false_...)."
  },
  {
   "property": "C69",
   "status": "partial",
   "theorems": [
    "Marcel.Sql.C69_running_partial",
    "Marcel.Sql.C69_ended_partial",
    "Marcel.Sql.C69_all_or_nothing_partial",
    "Marcel.Sql.C69_output_partial",
    "Marcel.Sql.C69_failure_partial",
    "Marcel.Sql.C69_setup",
    "Marcel.Sql.C69_classify",
    "Marcel.Sql.C69_example",
    "Marcel.Sql.C69_example_commit",
    "Marcel.Sql.C69_false_args",
    "Marcel.Sql.C69_false_select_star",
    "Marcel.Sql.C69_false_blank",
    "Marcel.Sql.C69_false_late_failure"
   ],
   "note": "Proved for all databases (without other sessions), inputs, flags, following operators and points of failure, if there are no ARGs or sql is first in the pipeline. False otherwise: input is bound instead of ARGs (C69_false_args); select*from t writes no rows (C69_false_select_star); an operator that fails at the end of its input fails after the commit (C69_false_late_failure)."
  },
  {
   "property": "C70",
   "status": "partial",
   "theorems": [
    "Marcel.Shell.C70_quote",
    "Marcel.Shell.C70_files",
    "Marcel.Shell.C70_unambiguous",
    "Marcel.Shell.C70_quote_injective",
    "Marcel.Shell.C70_upload_partial",
    "Marcel.Shell.C70_download_partial",
    "Marcel.Shell.C70_remote",
    "Marcel.Shell.C70_sudo_partial",
    "Marcel.Shell.C70_listing_partial",
    "Marcel.Shell.C70_upload_false",
    "Marcel.Shell.C70_download_false",
    "Marcel.Shell.C70_sudo_false",
    "Marcel.Shell.C70_listing_false",
    "Marcel.Shell.C70_example"
   ],
   "note": "Proved for all file names, hosts, ports. The code quotes only the names of the files: false for destinations, identities, flags with characters that mean something to the shell (C70_upload_false, C70_sudo_false); download ignores the port of a host (C70_download_false); a name with a quote copied from ls is not read back by marcel itself (C70_listing_false)."
  },
  {
   "property": "C71",
   "status": "partial",
   "theorems": [
    "Marcel.Api.C71_partial",
    "Marcel.Api.C71_others_partial",
    "Marcel.Api.C71_exclusive_partial",
    "Marcel.Api.C71_pad_false",
    "Marcel.Api.C71_clear_false",
    "Marcel.Api.C71_depth_false",
    "Marcel.Api.C71_filename_false",
    "Marcel.Api.C71_flaglike_false"
   ],
   "note": "Proved for all 42 functions with a list of arguments, for all acceptable values that are true for Python where the code tests truth, clear=True or None, depth 0, 1 or None. False otherwise (C71_..._false). ps is not in this model (it stores its arguments without parsing)."
  },
  {
   "property": "C72",
   "status": "proved",
   "theorems": [
    "Marcel.Exec.C72_command"
   ],
   "note": "For the twelve operators, without gen --pad (C20) and window --overlap (C08: it does not fit this description of streams, as it sends what is left at each flush). Functions are given by expressions, names or symbols. Values and functions are arbitrary (World). Names of these operators must not be variables (Names.Usual and the second hypothesis)."
  },
  {
   "property": "C73",
   "status": "proved",
   "theorems": [
    "Marcel.Help.C73_help",
    "Marcel.Help.C73_runs"
   ],
   "note": "For well-formed documents (Doc.WF); textwrap is any function that changes only blanks (KeepsText), highlighting is left open (pieces with colours). What happens to documents that break the rules: C73_..._hangs, C73_..._fails, C73_blank_before_option_ignored."
  },
  {
   "property": "C74",
   "status": "proved",
   "theorems": [
    "Marcel.Timer.C74_order",
    "Marcel.Timer.C74_spacing",
    "Marcel.Timer.C74_latest",
    "Marcel.Timer.C74_none_lost",
    "Marcel.Timer.C74_progress"
   ],
   "note": "For intervals that sleep accepts. Others (timer -1, timer (1)) are not refused: C74_bad_interval. An interrupt of the command is not modelled."
  },
  {
   "property": "C75",
   "status": "partial",
   "theorems": [
    "Marcel.EnvVals.C75_partial",
    "Marcel.EnvVals.C75_command",
    "Marcel.EnvVals.C75_false_order",
    "Marcel.EnvVals.C75_false_stale",
    "Marcel.EnvVals.C75_false_method",
    "Marcel.EnvVals.C75_false_alias",
    "Marcel.EnvVals.C75_false_unpicklable"
   ],
   "note": "Proved for values whose remaking depends on nothing that comes later (see the hypotheses of C75_partial); false otherwise: a function made from a variable assigned after it, a method of an object, an alias of a pipeline, a value that cannot be pickled."
  },
  {
   "property": "C76",
   "status": "partial",
   "theorems": [
    "Marcel.EnvOp.C76_partial",
    "Marcel.EnvOp.C76_import",
    "Marcel.EnvOp.C76_refused",
    "Marcel.EnvOp.C76_false"
   ],
   "note": "Proved for what marcel and the startup script define; false for the public names of marcel.builtin unless the script imports them (all of them are the one defined last)."
  },
  {
   "property": "C77",
   "status": "partial",
   "theorems": [
    "Marcel.EnvOp.C77_list",
    "Marcel.EnvOp.C77_var",
    "Marcel.EnvOp.C77_delete",
    "Marcel.EnvOp.C77_false_none"
   ],
   "note": "Missing: env VAR for a variable whose value is None, which is reported as undefined (C77_false_none)."
  },
  {
   "property": "C78",
   "status": "partial",
   "theorems": [
    "Marcel.EnvOp.C78_failure",
    "Marcel.EnvOp.C78_module",
    "Marcel.EnvOp.C78_symbol",
    "Marcel.EnvOp.C78_star",
    "Marcel.EnvOp.C78_refused",
    "Marcel.EnvOp.C78_false_package",
    "Marcel.EnvOp.C78_false_all",
    "Marcel.EnvOp.C78_false_submodule"
   ],
   "note": "What is bound is proved exactly; it differs from the Python statement for modules in packages and for modules with __all__."
  },
  {
   "property": "C79",
   "status": "partial",
   "theorems": [
    "Marcel.Remote.C79_remote",
    "Marcel.Remote.C79_sudo",
    "Marcel.Remote.C79_sudo_general",
    "Marcel.Remote.C79_false_sudo",
    "Marcel.Remote.C79_false_print",
    "Marcel.Remote.C79_false_swallow",
    "Marcel.Remote.C79_false_unreached",
    "Marcel.Remote.C79_false_changed",
    "Marcel.Remote.C79_false_twice"
   ],
   "note": "Proved for pipelines that print nothing and do not change what they have output. False otherwise: sudo delivers errors as items; text printed remotely cuts off the output; a pipeline that cannot be pickled or a host that cannot be reached looks like no output; objects changed after output arrive stale; a first operator that fails is reported twice."
  },
  {
   "property": "C80",
   "status": "partial",
   "theorems": [
    "Marcel.Rerun.C80_map",
    "Marcel.Rerun.C80_select",
    "Marcel.Rerun.C80_head",
    "Marcel.Rerun.C80_tail",
    "Marcel.Rerun.C80_unique",
    "Marcel.Rerun.C80_unique_consecutive",
    "Marcel.Rerun.C80_window_predicate",
    "Marcel.Rerun.C80_window_overlap",
    "Marcel.Rerun.C80_window_disjoint",
    "Marcel.Rerun.C80_red",
    "Marcel.Rerun.C80_red_group",
    "Marcel.Rerun.C80_sort",
    "Marcel.Rerun.C80_args",
    "Marcel.Rerun.C80_union",
    "Marcel.Rerun.C80_join",
    "Marcel.Rerun.C80_case",
    "Marcel.Rerun.C80_case_refused",
    "Marcel.Rerun.C80_difference",
    "Marcel.Rerun.C80_filter",
    "Marcel.Rerun.C80_intersect_copies",
    "Marcel.Rerun.C80_pos_copies",
    "Marcel.Rerun.C80_pipeline",
    "Marcel.Rerun.C80_pipeline_first",
    "Marcel.Rerun.C80_false_reverse",
    "Marcel.Rerun.C80_false_reverse_args",
    "Marcel.Rerun.C80_false_intersect",
    "Marcel.Rerun.C80_false_difference",
    "Marcel.Rerun.C80_false_filter",
    "Marcel.Rerun.C80_false_join",
    "Marcel.Rerun.C80_false_case",
    "Marcel.Rerun.C80_false_case_variable",
    "Marcel.Rerun.C80_false_sudo",
    "Marcel.Rerun.C80_false_pos"
   ],
   "note": "Proved for pipelines of the listed operators (difference, filter and join: input without None; case: branches without state). False for reverse, sudo, case with a branch that has state or uses variables in arguments (always), intersect and pos() (in args), difference, filter and join with None."
  },
  {
   "property": "C81",
   "status": "partial",
   "theorems": [
    "Marcel.FileObj.C81_mode",
    "Marcel.FileObj.C81_listing",
    "Marcel.FileObj.C81_absolute",
    "Marcel.FileObj.C81_base",
    "Marcel.FileObj.C81_colors",
    "Marcel.FileObj.C81_aligned",
    "Marcel.FileObj.C81_widths",
    "Marcel.FileObj.C81_transport",
    "Marcel.FileObj.C81_transport_all",
    "Marcel.FileObj.C81_false_types",
    "Marcel.FileObj.C81_false_aligned",
    "Marcel.FileObj.C81_false_link",
    "Marcel.FileObj.C81_false_owner"
   ],
   "note": "Proved for regular files, directories and links on one computer. False: sockets and block devices are shown as directories; the group column has the width of the user column; links from another computer are read locally; owners of files after the first from another computer get local names."
  },
  {
   "property": "C82",
   "status": "partial",
   "theorems": [
    "Marcel.Ps.C82_ps",
    "Marcel.Ps.C82_refused",
    "Marcel.Ps.C82_again",
    "Marcel.Ps.C82_false_empty",
    "Marcel.Ps.C82_false_hidden",
    "Marcel.Ps.C82_false_api",
    "Marcel.Ps.C82_false_api_three",
    "Marcel.Ps.C82_false_zero"
   ],
   "note": "Proved for commands with sensible arguments. False: an empty pid is taken as none given; a process whose users are hidden ends the command; the Python API function ps always raises."
  },
  {
   "property": "C83",
   "status": "partial",
   "theorems": [
    "Marcel.Edit.C83_edit",
    "Marcel.Edit.C83_last",
    "Marcel.Edit.C83_lines",
    "Marcel.Edit.C83_other",
    "Marcel.Edit.C83_startup",
    "Marcel.Edit.C83_example",
    "Marcel.Edit.C83_false_lines",
    "Marcel.Edit.C83_false_empty",
    "Marcel.Edit.C83_false_number",
    "Marcel.Edit.C83_false_prefix",
    "Marcel.Edit.C83_false_api"
   ],
   "note": "Proved if the editor leaves one line, not empty, and the number is one of a command. False: newlines inside are doubled; if the editor leaves nothing, the line edit itself is run; for a number that no command has the editor is started all the same; lines that begin with edit but are other commands; the Python API."
  },
  {
   "property": "C84",
   "status": "partial",
   "theorems": [
    "Marcel.JsonUtil.C84_parse",
    "Marcel.JsonUtil.C84_last",
    "Marcel.JsonUtil.C84_roundtrip",
    "Marcel.JsonUtil.C84_roundtrip_plain",
    "Marcel.JsonUtil.C84_format",
    "Marcel.JsonUtil.C84_refused",
    "Marcel.JsonUtil.C84_expand",
    "Marcel.JsonUtil.C84_example",
    "Marcel.JsonUtil.C84_false_items",
    "Marcel.JsonUtil.C84_false_kind"
   ],
   "note": "Assumes that the json module of Python parses what it prints. False: objects with a field items cannot be expanded; tuples, dictionaries and other objects come back as lists and Structs. Not modelled: read --json joins lines with blanks and ignores --label."
  },
  {
   "property": "C85",
   "status": "partial",
   "theorems": [
    "Marcel.Reduce.C85_red",
    "Marcel.Reduce.C85_incremental",
    "Marcel.Reduce.C85_group",
    "Marcel.Reduce.C85_squish",
    "Marcel.Reduce.C85_at_once",
    "Marcel.Reduce.C85_kept_partial",
    "Marcel.Reduce.C85_false_and",
    "Marcel.Reduce.C85_false_none",
    "Marcel.Reduce.C85_false_count",
    "Marcel.Reduce.C85_false_kept"
   ],
   "note": "Proved for values as described in Spec/Reduce.lean (None, bool, int, str, list). False: None makes and forget what came before; a None at the beginning is left out by +, max, ..., a later one is an error; squish count of an empty row is None; rows of red -i concat that are kept all contain the complete list."
  },
  {
   "property": "C86",
   "status": "partial",
   "theorems": [
    "Marcel.Cast.C86_cast",
    "Marcel.Cast.C86_unique",
    "Marcel.Cast.C86_names_partial",
    "Marcel.Cast.C86_false_names"
   ],
   "note": "Missing: names of builtins that are not types (print, len) are accepted (C86_false_names)."
  },
  {
   "property": "C87",
   "status": "partial",
   "theorems": [
    "Marcel.Color.C87_shown",
    "Marcel.Color.C87_none",
    "Marcel.Color.C87_distinct",
    "Marcel.Color.C87_codes",
    "Marcel.Color.C87_false_range",
    "Marcel.Color.C87_false_nested"
   ],
   "note": "Proved against a terminal that implements SGR (Spec/Terminal.lean). False: a colour outside of the range is only complained about, and looks like another one; after an already coloured part the colour is lost."
  },
  {
   "property": "C88",
   "status": "partial",
   "theorems": [
    "Marcel.Color.C88_prompt",
    "Marcel.Color.C88_default",
    "Marcel.Color.C88_dir",
    "Marcel.Color.C88_dir_distinct",
    "Marcel.Color.C88_dir_workspace",
    "Marcel.Color.C88_root",
    "Marcel.Color.C88_false_kill",
    "Marcel.Color.C88_false_prefix",
    "Marcel.Color.C88_false_type"
   ],
   "note": "False: a component of another type ends the shell instead of giving the default prompt; with home /home/jo the directory /home/john is shown as ~hn; outside of the home of a workspace PROMPT_DIR is not a string."
  },
  {
   "property": "C89",
   "status": "partial",
   "theorems": [
    "Marcel.Color.C89_set",
    "Marcel.Color.C89_sound",
    "Marcel.Color.C89_extension",
    "Marcel.Color.C89_false_new",
    "Marcel.Color.C89_false_unchecked"
   ],
   "note": "False for set_extension_color: in a new scheme it fails, otherwise it accepts anything."
  },
  {
   "property": "C90",
   "status": "partial",
   "theorems": [
    "Marcel.Cluster.C90_use",
    "Marcel.Cluster.C90_shown",
    "Marcel.Cluster.C90_cluster",
    "Marcel.Cluster.C90_refused",
    "Marcel.Cluster.C90_equal_partial",
    "Marcel.Cluster.C90_false_equal",
    "Marcel.Cluster.C90_false_pair",
    "Marcel.Cluster.C90_false_late"
   ],
   "note": "False: used hosts that differ in their ports are equal; a pair of names is taken for a host with a port; what is no host ends the shell only when it is used."
  },
  {
   "property": "C91",
   "status": "partial",
   "theorems": [
    "Marcel.WsOp.C91_requests",
    "Marcel.WsOp.C91_one_flag",
    "Marcel.WsOp.C91_run",
    "Marcel.WsOp.C91_example",
    "Marcel.WsOp.C91_false_extra",
    "Marcel.WsOp.C91_false_api_name",
    "Marcel.WsOp.C91_false_api_export"
   ],
   "note": "Proved for all lists of strings: which lists are accepted and what they request (iff), and what is done. What happens on disk for list, delete and delete-broken: C65, C66. False: another argument after the name is ignored (C91_false_extra); in the API, name= opens a workspace called \"name\", exp= and imp= are always refused (C91_false_api_name, C91_false_api_export)."
  },
  {
   "property": "C92",
   "status": "partial",
   "theorems": [
    "Marcel.Locations.C92_base",
    "Marcel.Locations.C92_layout",
    "Marcel.Locations.C92_inside",
    "Marcel.Locations.C92_distinct",
    "Marcel.Locations.C92_default_apart",
    "Marcel.Locations.C92_example",
    "Marcel.Locations.C92_false_empty",
    "Marcel.Locations.C92_false_nested",
    "Marcel.Locations.C92_false_default",
    "Marcel.Locations.C92_false_absolute",
    "Marcel.Locations.C92_false_dotdot",
    "Marcel.Locations.C92_false_same"
   ],
   "note": "Proved for all workspaces whose names can be names of files, all variables, all processes: the places are the documented ones, and two files are at one place iff they are the same file (and, for those each process has for itself, the processes are the same), provided neither directory is within the other, which the default directories are not. False: XDG_CONFIG_HOME set but empty gives the current directory; names of workspaces are not checked, so that a/b, .., /x and __DEFAULT__ reach into other workspaces or out of marcel's directories; with both variables equal the two directories of a workspace are one."
  },
  {
   "property": "C93",
   "status": "partial",
   "theorems": [
    "Marcel.Trace.C93_requests",
    "Marcel.Trace.C93_here",
    "Marcel.Trace.C93_started",
    "Marcel.Trace.C93_forked",
    "Marcel.Trace.C93_refused",
    "Marcel.Trace.C93_initially",
    "Marcel.Trace.C93_append",
    "Marcel.Trace.C93_status",
    "Marcel.Trace.C93_example",
    "Marcel.Trace.C93_false_here",
    "Marcel.Trace.C93_false_status_job",
    "Marcel.Trace.C93_false_status_file",
    "Marcel.Trace.C93_false_cd",
    "Marcel.Trace.C93_false_cd_job"
   ],
   "note": "Proved for all histories and depths: lines of started processes go where the last trace said (a relative file name taken in the directory of that moment), lines of the process itself do until it starts another process, and always with start method fork; the accepted arguments (iff). False: starting a process turns tracing off in the one that starts it (C93_false_here), after which trace reports off (C93_false_status_job); trace reports nothing for a file (C93_false_status_file); after cd the lines of jobs go to another file (C93_false_cd), and if that cannot be opened no job runs (C93_false_cd_job)."
  },
  {
   "property": "C94",
   "status": "partial",
   "theorems": [
    "Marcel.Exec.C94_nested_partial",
    "Marcel.Exec.C94_false_union"
   ],
   "note": "Proved for all pipelines of the 12 operators of C72 and union, difference, intersect, join, filter, with pipelines as arguments to any depth, written in any way, all values and functions, all numbers of steps: the text of the command shows what the specification (Spec/ExecNest: relations on streams) says. False, and excluded: union after tail or union in the same pipeline runs its pipelines again (C94_false_union). Missing: argument pipelines that do not end (or that end by an error in difference, intersect, join, filter and would be run again for the next item), pipelines with parameters, given by the name of a variable, and other operators."
  },
  {
   "property": "C95",
   "status": "partial",
   "theorems": [
    "Marcel.Objects.C95_equal",
    "Marcel.Objects.C95_compare",
    "Marcel.Objects.C95_order",
    "Marcel.Objects.C95_hash",
    "Marcel.Objects.C95_set",
    "Marcel.Objects.C95_unique",
    "Marcel.Objects.C95_unique_shape",
    "Marcel.Objects.C95_sort",
    "Marcel.Objects.C95_consecutive",
    "Marcel.Objects.C95_false_other",
    "Marcel.Objects.C95_false_history",
    "Marcel.Objects.C95_false_mixed",
    "Marcel.Objects.C95_false_consecutive"
   ],
   "note": "Proved for all objects, items, streams and hash functions: all six comparisons agree with the specified equality and order, which is total; equal objects have equal hashes; set membership, unique, unique --consecutive and sort go by identity. False: history records are unhashable, which kills unique (C95_false_history); a comparison with an object of another kind, also ==, is an AttributeError (C95_false_other), which crashes unique (C95_false_mixed) and unique --consecutive (C95_false_consecutive). Missing: floating point numbers, booleans, lists and nested tuples as components; hosts (C55)."
  },
  {
   "property": "C96",
   "status": "partial",
   "theorems": [
    "Marcel.Session.C96_orderly",
    "Marcel.Session.C96_change",
    "Marcel.Session.C96_script",
    "Marcel.Session.C96_unreadable",
    "Marcel.Session.C96_released",
    "Marcel.Session.C96_ends",
    "Marcel.Session.C96_false_handlers",
    "Marcel.Session.C96_false_kill",
    "Marcel.Session.C96_false_forever",
    "Marcel.Session.C96_false_default",
    "Marcel.Session.C96_false_startup_ws",
    "Marcel.Session.C96_false_again",
    "Marcel.Session.C96_false_locked"
   ],
   "note": "Proved for all behaviours of files, startup scripts, commands and closing, all numbers of steps: commands only in the open and locked workspace, one workspace at a time (C96_orderly); the workspace asked for is opened if nothing is in the way (C96_change); fallback to the default workspace (C96_script, C96_unreadable); the reasons of ending (C96_ends); locks are given back if nothing fails after locking (C96_released). False: C96_false_forever (default startup script fails: endless loop), C96_false_handlers (handlers never reached), C96_false_again (script executed again and again), C96_false_startup_ws, C96_false_kill, C96_false_default, C96_false_locked."
  },
  {
   "property": "C97",
   "status": "partial",
   "theorems": [
    "Marcel.Help.C97_help_topics",
    "Marcel.Help.C97_shipped",
    "Marcel.Help.C97_front_page",
    "Marcel.Help.C97_operators",
    "Marcel.Help.C97_false_assign",
    "Marcel.Help.C97_false_front_page",
    "Marcel.Help.C97_false_reference",
    "Marcel.Help.C97_false_function"
   ],
   "note": "Selection proved for all topics, operators and texts; that the shipped texts (generated into Model/HelpTexts from /repo, checked piece by piece by a verified checker, Lemmas/HelpCheck) are well-formed, hence shown as C73 says for all widths and schemes. False: C97_false_assign, C97_false_front_page, C97_false_reference, C97_false_function. Missing: topics with characters beyond ASCII; textwrap (a parameter that changes only blanks)."
  },
  {
   "property": "C98",
   "status": "partial",
   "theorems": [
    "Marcel.Render.C98_colours",
    "Marcel.Render.C98_columns",
    "Marcel.Render.C98_readable",
    "Marcel.Render.C98_history",
    "Marcel.Render.C98_false_columns",
    "Marcel.Render.C98_false_history_file"
   ],
   "note": "Proved for all items, schemes and texts without escape characters: the terminal shows the same text with colours as without, and is as before after it (C98_colours, with the terminal of C87); columns (C98_columns); processes and history records can be read back (C98_readable: if users and status do not end with blanks; C98_history). False: C98_false_columns, C98_false_history_file (with the writer of C58). Missing: files (C67), locales that group digits."
  },
  {
   "property": "C99",
   "status": "partial",
   "theorems": [
    "Marcel.SchemeShow.C99_colours",
    "Marcel.SchemeShow.C99_display",
    "Marcel.SchemeShow.C99_sorted",
    "Marcel.SchemeShow.C99_color",
    "Marcel.SchemeShow.C99_default",
    "Marcel.SchemeShow.C99_prompt"
   ],
   "note": "Proved: same text in all colours (C99_colours, with the terminal of C87), layout (C99_display: the comma counters of render_full amount to separating by commas), order (C99_sorted), colours can be read back (C99_color), the default configuration (C99_default, its prompt C99_prompt by C88). False parts: file_link_broken has no colour (in C99_default), no display without a scheme (in C99_display). Missing: keys of extensions that are no strings; reading back whole schemes (keys of extensions are shown without quotes)."
  }
 ]
}