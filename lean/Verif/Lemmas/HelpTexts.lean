import Verif.Model.HelpTexts
import Verif.Lemmas.HelpCheck

/-! # The help texts that come with marcel are well-formed

Generated by /verif/tools/mkhelp.py. -/

namespace Marcel.Help

theorem op_args_wf : checkPieces (partsOf op_args) = true := by decide +kernel

theorem op_bash_wf : checkPieces (partsOf op_bash) = true := by decide +kernel

theorem op_bg_wf : checkPieces (partsOf op_bg) = true := by decide +kernel

theorem op_case_wf : checkPieces (partsOf op_case) = true := by decide +kernel

theorem op_cast_wf : checkPieces (partsOf op_cast) = true := by decide +kernel

theorem op_cd_wf : checkPieces (partsOf op_cd) = true := by decide +kernel

theorem op_difference_wf : checkPieces (partsOf op_difference) = true := by decide +kernel

theorem op_dirs_wf : checkPieces (partsOf op_dirs) = true := by decide +kernel

theorem op_download_wf : checkPieces (partsOf op_download) = true := by decide +kernel

theorem op_edit_wf : checkPieces (partsOf op_edit) = true := by decide +kernel

theorem op_env_wf : checkPieces (partsOf op_env) = true := by decide +kernel

theorem op_exit_wf : checkPieces (partsOf op_exit) = true := by decide +kernel

theorem op_expand_wf : checkPieces (partsOf op_expand) = true := by decide +kernel

theorem op_fg_wf : checkPieces (partsOf op_fg) = true := by decide +kernel

theorem op_filter_wf : checkPieces (partsOf op_filter) = true := by decide +kernel

theorem op_fork_wf : checkPieces (partsOf op_fork) = true := by decide +kernel

theorem op_gen_wf : checkPieces (partsOf op_gen) = true := by decide +kernel

theorem op_head_wf : checkPieces (partsOf op_head) = true := by decide +kernel

theorem op_help_wf : checkPieces (partsOf op_help) = true := by decide +kernel

theorem op_history_wf : checkPieces (partsOf op_history) = true := by decide +kernel

theorem op_import_wf : checkPieces (partsOf op_import) = true := by decide +kernel

theorem op_intersect_wf : checkPieces (partsOf op_intersect) = true := by decide +kernel

theorem op_jobs_wf : checkPieces (partsOf op_jobs) = true := by decide +kernel

theorem op_join_wf : checkPieces (partsOf op_join) = true := by decide +kernel

theorem op_load_wf : checkPieces (partsOf op_load) = true := by decide +kernel

theorem op_ls_wf : checkPieces (partsOf op_ls) = true := by decide +kernel

theorem op_map_wf : checkPieces (partsOf op_map) = true := by decide +kernel

theorem op_popd_wf : checkPieces (partsOf op_popd) = true := by decide +kernel

theorem op_ps_wf : checkPieces (partsOf op_ps) = true := by decide +kernel

theorem op_pushd_wf : checkPieces (partsOf op_pushd) = true := by decide +kernel

theorem op_pwd_wf : checkPieces (partsOf op_pwd) = true := by decide +kernel

theorem op_red_wf : checkPieces (partsOf op_red) = true := by decide +kernel

theorem op_read_wf : checkPieces (partsOf op_read) = true := by decide +kernel

theorem op_remote_wf : checkPieces (partsOf op_remote) = true := by decide +kernel

theorem op_reverse_wf : checkPieces (partsOf op_reverse) = true := by decide +kernel

theorem op_run_wf : checkPieces (partsOf op_run) = true := by decide +kernel

theorem op_select_wf : checkPieces (partsOf op_select) = true := by decide +kernel

theorem op_sort_wf : checkPieces (partsOf op_sort) = true := by decide +kernel

theorem op_squish_wf : checkPieces (partsOf op_squish) = true := by decide +kernel

theorem op_sql_wf : checkPieces (partsOf op_sql) = true := by decide +kernel

theorem op_store_wf : checkPieces (partsOf op_store) = true := by decide +kernel

theorem op_sudo_wf : checkPieces (partsOf op_sudo) = true := by decide +kernel

theorem op_tail_wf : checkPieces (partsOf op_tail) = true := by decide +kernel

theorem op_timer_wf : checkPieces (partsOf op_timer) = true := by decide +kernel

theorem op_trace_wf : checkPieces (partsOf op_trace) = true := by decide +kernel

theorem op_unique_wf : checkPieces (partsOf op_unique) = true := by decide +kernel

theorem op_union_wf : checkPieces (partsOf op_union) = true := by decide +kernel

theorem op_upload_wf : checkPieces (partsOf op_upload) = true := by decide +kernel

theorem op_version_wf : checkPieces (partsOf op_version) = true := by decide +kernel

theorem op_window_wf : checkPieces (partsOf op_window) = true := by decide +kernel

theorem op_write_wf : checkPieces (partsOf op_write) = true := by decide +kernel

theorem op_ws_wf : checkPieces (partsOf op_ws) = true := by decide +kernel

theorem doc_builtin_wf : checkPieces (partsOf doc_builtin) = true := by decide +kernel

theorem doc_color_wf : checkPieces (partsOf doc_color) = true := by decide +kernel

theorem doc_command_wf : checkPieces (partsOf doc_command) = true := by decide +kernel

theorem doc_configuration_wf : checkPieces (partsOf doc_configuration) = true := by decide +kernel

theorem doc_file_wf : checkPieces (partsOf doc_file) = true := by decide +kernel

theorem doc_function_wf : checkPieces (partsOf doc_function) = true := by decide +kernel

theorem doc_history_record_wf : checkPieces (partsOf doc_history_record) = true := by decide +kernel

theorem doc_interaction_wf : checkPieces (partsOf doc_interaction) = true := by decide +kernel

theorem doc_marcel_wf : checkPieces (partsOf doc_marcel) = true := by decide +kernel

theorem doc_namespace_wf : checkPieces (partsOf doc_namespace) = true := by decide +kernel

theorem doc_object_wf : checkPieces (partsOf doc_object) = true := by decide +kernel

theorem doc_operator_wf : checkPieces (partsOf doc_operator) = true := by decide +kernel

theorem doc_overview_wf : checkPieces (partsOf doc_overview) = true := by decide +kernel

theorem doc_pipeline_wf : checkPieces (partsOf doc_pipeline) = true := by decide +kernel

theorem doc_process_wf : checkPieces (partsOf doc_process) = true := by decide +kernel

theorem doc_prompt_wf : checkPieces (partsOf doc_prompt) = true := by decide +kernel

theorem doc_startup_wf : checkPieces (partsOf doc_startup) = true := by decide +kernel

theorem shippedOps_wf : ∀ t, (∃ n, (n, some t) ∈ shippedOps) → ∃ d : Doc, d.raw = t ∧ d.WF := by
  rintro t ⟨n, h⟩
  simp only [shippedOps, List.mem_cons, List.not_mem_nil, or_false, Prod.mk.injEq, Option.some.injEq, reduceCtorEq, and_false, false_or] at h
  obtain ⟨-, rfl⟩ | ⟨-, rfl⟩ | ⟨-, rfl⟩ | ⟨-, rfl⟩ | ⟨-, rfl⟩ | ⟨-, rfl⟩ | ⟨-, rfl⟩ | ⟨-, rfl⟩ | ⟨-, rfl⟩ | ⟨-, rfl⟩ | ⟨-, rfl⟩ | ⟨-, rfl⟩ | ⟨-, rfl⟩ | ⟨-, rfl⟩ | ⟨-, rfl⟩ | ⟨-, rfl⟩ | ⟨-, rfl⟩ | ⟨-, rfl⟩ | ⟨-, rfl⟩ | ⟨-, rfl⟩ | ⟨-, rfl⟩ | ⟨-, rfl⟩ | ⟨-, rfl⟩ | ⟨-, rfl⟩ | ⟨-, rfl⟩ | ⟨-, rfl⟩ | ⟨-, rfl⟩ | ⟨-, rfl⟩ | ⟨-, rfl⟩ | ⟨-, rfl⟩ | ⟨-, rfl⟩ | ⟨-, rfl⟩ | ⟨-, rfl⟩ | ⟨-, rfl⟩ | ⟨-, rfl⟩ | ⟨-, rfl⟩ | ⟨-, rfl⟩ | ⟨-, rfl⟩ | ⟨-, rfl⟩ | ⟨-, rfl⟩ | ⟨-, rfl⟩ | ⟨-, rfl⟩ | ⟨-, rfl⟩ | ⟨-, rfl⟩ | ⟨-, rfl⟩ | ⟨-, rfl⟩ | ⟨-, rfl⟩ | ⟨-, rfl⟩ | ⟨-, rfl⟩ | ⟨-, rfl⟩ | ⟨-, rfl⟩ | ⟨-, rfl⟩ := h
  · exact checkPieces_sound op_args_wf
  · exact checkPieces_sound op_bash_wf
  · exact checkPieces_sound op_bg_wf
  · exact checkPieces_sound op_case_wf
  · exact checkPieces_sound op_cast_wf
  · exact checkPieces_sound op_cd_wf
  · exact checkPieces_sound op_difference_wf
  · exact checkPieces_sound op_dirs_wf
  · exact checkPieces_sound op_download_wf
  · exact checkPieces_sound op_edit_wf
  · exact checkPieces_sound op_env_wf
  · exact checkPieces_sound op_exit_wf
  · exact checkPieces_sound op_expand_wf
  · exact checkPieces_sound op_fg_wf
  · exact checkPieces_sound op_filter_wf
  · exact checkPieces_sound op_fork_wf
  · exact checkPieces_sound op_gen_wf
  · exact checkPieces_sound op_head_wf
  · exact checkPieces_sound op_help_wf
  · exact checkPieces_sound op_history_wf
  · exact checkPieces_sound op_import_wf
  · exact checkPieces_sound op_intersect_wf
  · exact checkPieces_sound op_jobs_wf
  · exact checkPieces_sound op_join_wf
  · exact checkPieces_sound op_load_wf
  · exact checkPieces_sound op_ls_wf
  · exact checkPieces_sound op_map_wf
  · exact checkPieces_sound op_popd_wf
  · exact checkPieces_sound op_ps_wf
  · exact checkPieces_sound op_pushd_wf
  · exact checkPieces_sound op_pwd_wf
  · exact checkPieces_sound op_red_wf
  · exact checkPieces_sound op_read_wf
  · exact checkPieces_sound op_remote_wf
  · exact checkPieces_sound op_reverse_wf
  · exact checkPieces_sound op_run_wf
  · exact checkPieces_sound op_select_wf
  · exact checkPieces_sound op_sort_wf
  · exact checkPieces_sound op_squish_wf
  · exact checkPieces_sound op_sql_wf
  · exact checkPieces_sound op_store_wf
  · exact checkPieces_sound op_sudo_wf
  · exact checkPieces_sound op_tail_wf
  · exact checkPieces_sound op_timer_wf
  · exact checkPieces_sound op_trace_wf
  · exact checkPieces_sound op_unique_wf
  · exact checkPieces_sound op_union_wf
  · exact checkPieces_sound op_upload_wf
  · exact checkPieces_sound op_version_wf
  · exact checkPieces_sound op_window_wf
  · exact checkPieces_sound op_write_wf
  · exact checkPieces_sound op_ws_wf

theorem shippedDocs_wf : ∀ t, (∃ n, (n, t) ∈ shippedDocs) → ∃ d : Doc, d.raw = t ∧ d.WF := by
  rintro t ⟨n, h⟩
  simp only [shippedDocs, List.mem_cons, List.not_mem_nil, or_false, Prod.mk.injEq] at h
  obtain ⟨-, rfl⟩ | ⟨-, rfl⟩ | ⟨-, rfl⟩ | ⟨-, rfl⟩ | ⟨-, rfl⟩ | ⟨-, rfl⟩ | ⟨-, rfl⟩ | ⟨-, rfl⟩ | ⟨-, rfl⟩ | ⟨-, rfl⟩ | ⟨-, rfl⟩ | ⟨-, rfl⟩ | ⟨-, rfl⟩ | ⟨-, rfl⟩ | ⟨-, rfl⟩ | ⟨-, rfl⟩ | ⟨-, rfl⟩ := h
  · exact checkPieces_sound doc_builtin_wf
  · exact checkPieces_sound doc_color_wf
  · exact checkPieces_sound doc_command_wf
  · exact checkPieces_sound doc_configuration_wf
  · exact checkPieces_sound doc_file_wf
  · exact checkPieces_sound doc_function_wf
  · exact checkPieces_sound doc_history_record_wf
  · exact checkPieces_sound doc_interaction_wf
  · exact checkPieces_sound doc_marcel_wf
  · exact checkPieces_sound doc_namespace_wf
  · exact checkPieces_sound doc_object_wf
  · exact checkPieces_sound doc_operator_wf
  · exact checkPieces_sound doc_overview_wf
  · exact checkPieces_sound doc_pipeline_wf
  · exact checkPieces_sound doc_process_wf
  · exact checkPieces_sound doc_prompt_wf
  · exact checkPieces_sound doc_startup_wf

end Marcel.Help
