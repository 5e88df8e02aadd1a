# Axioms of the theorems named in MANIFEST.json

Output of `#print axioms`, grouped by property.  `propext`, `Classical.choice` and `Quot.sound`
are the axioms of Lean itself; there are no others.

| property | theorem | axioms |
|---|---|---|
| C01 | `C01_framing` | propext, Quot.sound |
| C01 | `C01_commands_partial` | propext, Classical.choice, Quot.sound |
| C01 | `C01_replies_partial` | propext, Classical.choice, Quot.sound |
| C01 | `C01_violated` | propext, Classical.choice, Quot.sound |
| C02 | `C02` | propext, Classical.choice, Quot.sound |
| C03 | `C03` | propext, Classical.choice, Quot.sound |
| C04 | `C04_commands_partial` | propext, Classical.choice, Quot.sound |
| C04 | `C04_replies_partial` | propext, Quot.sound |
| C04 | `C04_violated` | propext, Classical.choice, Quot.sound |
| C05 | `C05_commands_partial` | propext, Classical.choice, Quot.sound |
| C05 | `C05_replies_partial` | propext, Classical.choice, Quot.sound |
| C05 | `C05_violated` | propext, Classical.choice, Quot.sound |
| C05 | `C05_empty_violated` | propext, Classical.choice, Quot.sound |
| C06 | `C06_silent` | propext, Quot.sound |
| C06 | `C06_end` | propext, Quot.sound |
| C07 | `C07_replace_body` | propext, Quot.sound |
| C07 | `C07_body` | propext, Classical.choice, Quot.sound |
| C08 | `C08_last_wins` | propext, Classical.choice, Quot.sound |
| C08 | `C08_table` | propext, Classical.choice, Quot.sound |
| C09 | `C09_lines` | propext, Quot.sound |
| C09 | `C09_transport_partial` | propext, Quot.sound |
| C09 | `C09_no_extended_violated` | propext, Classical.choice, Quot.sound |
| C09 | `C09_no_message_violated` | propext, Classical.choice, Quot.sound |
| C10 | `C10_accepts` | propext, Classical.choice, Quot.sound |
| C10 | `C10_stores` | propext, Classical.choice, Quot.sound |
| C100 | `C100_quit` | propext, Classical.choice, Quot.sound |
| C100 | `C100_once` | propext, Classical.choice, Quot.sound |
| C100 | `C100_no_offer` | propext, Classical.choice, Quot.sound |
| C101 | `C101_as_data` | propext, Quot.sound |
| C101 | `C101_kept` | propext, Classical.choice, Quot.sound |
| C101 | `C101_waiting` | propext, Classical.choice, Quot.sound |
| C101 | `C101_decided` | propext, Classical.choice, Quot.sound |
| C101 | `C101_carried_out` | propext, Classical.choice, Quot.sound |
| C101 | `C101_header_lost_violated` | propext, Quot.sound |
| C102 | `C102_situation` | none |
| C102 | `C102_skip_partial` | propext, Quot.sound |
| C102 | `C102_replay_partial` | propext, Quot.sound |
| C102 | `C102_next_message_violated` | propext, Quot.sound |
| C102 | `C102_not_asked_violated` | propext, Quot.sound |
| C103 | `Ruby.C103_partial` | propext, Classical.choice, Quot.sound |
| C103 | `Ruby.C103_last_chunk_violated` | propext, Classical.choice, Quot.sound |
| C104 | `Ruby.C104_partial` | propext, Classical.choice, Quot.sound |
| C104 | `Ruby.C104_no_session` | propext, Classical.choice, Quot.sound |
| C104 | `Ruby.C104_stale_reply_violated` | propext, Classical.choice, Quot.sound |
| C104 | `Ruby.C104_reject_code_violated` | propext, Classical.choice, Quot.sound |
| C104 | `Ruby.C104_quarantine_violated` | propext, Classical.choice, Quot.sound |
| C105 | `Ruby.C105_partial` | propext, Classical.choice, Quot.sound |
| C105 | `Ruby.C105_continue_violated` | propext, Classical.choice, Quot.sound |
| C105 | `Ruby.C105_exception_violated` | propext, Classical.choice, Quot.sound |
| C105 | `Ruby.C105_composite_violated` | propext, Classical.choice, Quot.sound |
| C106 | `Ruby.C106_negotiate` | propext, Classical.choice, Quot.sound |
| C107 | `Ruby.C107_partial` | propext, Classical.choice, Quot.sound |
| C107 | `Ruby.C107_name_violated` | propext, Classical.choice, Quot.sound |
| C107 | `Ruby.C107_reply_violated` | propext, Classical.choice, Quot.sound |
| C107 | `Ruby.C107_leading_space_violated` | propext, Classical.choice, Quot.sound |
| C107 | `Ruby.C105_composite_violated` | propext, Classical.choice, Quot.sound |
| C108 | `C108_partial` | propext, Classical.choice, Quot.sound |
| C108 | `C108_after_partial` | propext, Classical.choice, Quot.sound |
| C108 | `C108_data_violated` | propext, Quot.sound |
| C108 | `C108_second_violated` | propext, Quot.sound |
| C108 | `C108_alone_violated` | propext, Quot.sound |
| C109 | `C109_partial` | propext, Classical.choice, Quot.sound |
| C109 | `C109_kept` | propext, Classical.choice, Quot.sound |
| C109 | `C109_sender` | propext, Classical.choice, Quot.sound |
| C109 | `C109_stale_violated` | propext, Quot.sound |
| C109 | `C109_order_violated` | propext, Classical.choice, Quot.sound |
| C11 | `C11` | propext, Quot.sound |
| C11 | `C11_algebra` | propext, Quot.sound |
| C110 | `C110_partial` | propext, Classical.choice, Quot.sound |
| C110 | `C110_message_partial` | propext, Classical.choice, Quot.sound |
| C110 | `C110_end_partial` | propext, Classical.choice, Quot.sound |
| C110 | `C110_milters` | propext, Classical.choice, Quot.sound |
| C111 | `Shipped.C111_trusted_partial` | propext, Classical.choice, Quot.sound |
| C111 | `Shipped.C111_told_partial` | propext, Classical.choice, Quot.sound |
| C111 | `Shipped.C111_file` | propext, Classical.choice, Quot.sound |
| C111 | `Shipped.C111_file_other` | propext, Quot.sound |
| C111 | `Shipped.C111_stale_violated` | propext, Classical.choice, Quot.sound |
| C111 | `Shipped.C111_quoted_violated` | propext, Classical.choice, Quot.sound |
| C111 | `Shipped.C111_capital_violated` | propext, Quot.sound |
| C112 | `Shipped.C112_stress` | propext, Classical.choice, Quot.sound |
| C112 | `Shipped.C112_stays` | none |
| C112 | `Shipped.C112_limit_partial` | propext, Classical.choice, Quot.sound |
| C112 | `Shipped.C112_threshold` | propext, Classical.choice, Quot.sound |
| C112 | `Shipped.C112_client_violated` | propext, Classical.choice, Quot.sound |
| C113 | `Shipped.C113_dnsbl` | propext, Classical.choice, Quot.sound |
| C113 | `Shipped.C113_distinct` | propext, Quot.sound |
| C114 | `Shipped.C114_from` | propext, Classical.choice, Quot.sound |
| C114 | `Shipped.C114_connect` | propext, Classical.choice, Quot.sound |
| C114 | `Shipped.C114_names` | propext, Classical.choice, Quot.sound |
| C115 | `C115_partial` | propext, Classical.choice, Quot.sound |
| C116 | `TestServer.C116_partial` | propext, Quot.sound |
| C116 | `TestServer.C116_defaults` | propext, Classical.choice, Quot.sound |
| C116 | `TestServer.C116_list_violated` | propext |
| C116 | `TestServer.C116_comma_violated` | propext |
| C116 | `TestServer.C116_blank_violated` | propext, Quot.sound |
| C116 | `TestServer.C116_nul_violated` | propext, Quot.sound |
| C116 | `TestServer.C116_case_violated` | propext |
| C117 | `TestServer.C117_partial` | propext, Classical.choice, Quot.sound |
| C117 | `TestServer.C117_stops_partial` | propext, Classical.choice, Quot.sound |
| C117 | `TestServer.C117_everybody_partial` | propext, Classical.choice, Quot.sound |
| C117 | `TestServer.C117_skip_partial` | propext, Classical.choice, Quot.sound |
| C117 | `TestServer.C117_silent_violated` | propext, Quot.sound |
| C117 | `TestServer.C117_recipient_violated` | propext, Quot.sound |
| C118 | `TestServer.C118_printed` | propext, Classical.choice, Quot.sound |
| C118 | `TestServer.C118_changes` | propext, Classical.choice, Quot.sound |
| C118 | `TestServer.C118_empty_violated` | none |
| C119 | `TestServer.C119_partial` | propext |
| C119 | `TestServer.C119_loop_violated` | propext |
| C12 | `C12_partial` | propext, Quot.sound |
| C12 | `C12_order_partial` | propext, Quot.sound |
| C12 | `C12_violated` | propext, Quot.sound |
| C120 | `Launch.C120_partial` | propext, Classical.choice, Quot.sound |
| C120 | `Launch.C120_again` | propext, Classical.choice, Quot.sound |
| C120 | `Launch.C120_offer_violated` | propext |
| C120 | `Launch.C120_launch_violated` | propext |
| C120 | `Launch.C120_late_violated` | propext |
| C121 | `Launch.C121_partial` | propext, Classical.choice, Quot.sound |
| C121 | `Launch.C121_waiting` | propext, Classical.choice, Quot.sound |
| C121 | `Launch.C121_unlaunched_partial` | propext, Classical.choice, Quot.sound |
| C121 | `Launch.C121_none` | propext, Quot.sound |
| C121 | `Launch.C121_launch_violated` | propext |
| C121 | `Launch.C121_leaves_violated` | propext, Quot.sound |
| C122 | `ControlSession.C122_served` | propext, Classical.choice, Quot.sound |
| C122 | `ControlSession.C122_partial` | propext, Classical.choice, Quot.sound |
| C122 | `ControlSession.C122_unknown_violated` | propext, Classical.choice, Quot.sound |
| C122 | `ControlSession.C122_status_violated` | propext, Classical.choice, Quot.sound |
| C123 | `Detector.C123_partial` | propext, Classical.choice, Quot.sound |
| C123 | `Detector.C123_unset_violated` | propext, Classical.choice, Quot.sound |
| C123 | `Detector.C123_single_violated` | propext, Classical.choice, Quot.sound |
| C123 | `Detector.C123_hash_violated` | propext, Classical.choice, Quot.sound |
| C123 | `Detector.C123_name_violated` | propext, Classical.choice, Quot.sound |
| C124 | `Detector.C124_partial` | propext, Quot.sound |
| C124 | `Detector.C124_greylist_partial` | propext, Classical.choice, Quot.sound |
| C124 | `Detector.C124_comment_violated` | propext, Classical.choice, Quot.sound |
| C124 | `Detector.C124_blanks_violated` | propext, Classical.choice, Quot.sound |
| C125 | `Detector.C125_partial` | propext, Classical.choice, Quot.sound |
| C125 | `Detector.C125_continued_violated` | propext, Classical.choice, Quot.sound |
| C125 | `Detector.C125_second_violated` | propext, Classical.choice, Quot.sound |
| C126 | `Detector.C126_form` | propext, Classical.choice, Quot.sound |
| C126 | `Detector.C126_word` | propext |
| C126 | `Detector.C126_joined` | propext, Quot.sound |
| C126 | `Detector.C126_redhat_partial` | propext, Classical.choice, Quot.sound |
| C126 | `Detector.C126_redhat_alone_partial` | propext, Classical.choice, Quot.sound |
| C126 | `Detector.C126_opendkim_partial` | propext, Classical.choice, Quot.sound |
| C127 | `Dump.C127_partial` | propext, Classical.choice, Quot.sound |
| C127 | `Dump.C127_options_violated` | propext, Classical.choice, Quot.sound |
| C127 | `Dump.C127_spec_violated` | propext, Classical.choice, Quot.sound |
| C127 | `Dump.C127_extra_violated` | propext, Classical.choice, Quot.sound |
| C128 | `Policy.C128_partial` | propext, Classical.choice, Quot.sound |
| C128 | `Policy.C128_sound_partial` | propext, Classical.choice, Quot.sound |
| C128 | `Policy.C128_apply_partial` | propext, Classical.choice, Quot.sound |
| C128 | `Policy.C128_unlisted_violated` | propext, Classical.choice, Quot.sound |
| C128 | `Policy.C128_two_violated` | propext, Classical.choice, Quot.sound |
| C128 | `Policy.C128_not_given_violated` | propext, Classical.choice, Quot.sound |
| C128 | `Policy.C128_helo_violated` | propext, Classical.choice, Quot.sound |
| C128 | `Policy.C128_fqdn_violated` | propext, Classical.choice, Quot.sound |
| C128 | `Policy.C128_settings_violated` | propext, Classical.choice, Quot.sound |
| C129 | `EnvelopeAddress.C129_partial` | propext, Classical.choice, Quot.sound |
| C129 | `EnvelopeAddress.C129_null` | propext, Quot.sound |
| C129 | `EnvelopeAddress.C129_nil` | propext |
| C129 | `EnvelopeAddress.C129_quoted_violated` | propext, Classical.choice, Quot.sound |
| C129 | `EnvelopeAddress.C129_route_violated` | propext, Quot.sound |
| C13 | `C13_order` | propext |
| C13 | `C13_max` | propext, Quot.sound |
| C13 | `C13_order_free` | propext, Quot.sound |
| C130 | `PackageOptions.C130_written_partial` | propext, Quot.sound |
| C130 | `PackageOptions.C130_hash_partial` | propext, Classical.choice, Quot.sound |
| C130 | `PackageOptions.C130_comma_violated` | propext, Classical.choice, Quot.sound |
| C131 | `Path.C131_first_partial` | propext, Classical.choice, Quot.sound |
| C131 | `Path.C131_pattern_partial` | propext, Quot.sound |
| C131 | `Path.C131_absolute` | propext |
| C131 | `Path.C131_no_directory` | propext, Quot.sound |
| C131 | `Path.C131_empty_violated` | propext, Classical.choice, Quot.sound |
| C132 | `UnixSocket.C132_only_there` | propext, Quot.sound |
| C132 | `UnixSocket.C132_listening_partial` | propext, Quot.sound |
| C132 | `UnixSocket.C132_starts` | propext, Quot.sound |
| C132 | `UnixSocket.C132_kept` | propext, Quot.sound |
| C132 | `UnixSocket.C132_gone_partial` | propext, Quot.sound |
| C132 | `UnixSocket.C132_controller_gone_partial` | propext, Quot.sound |
| C132 | `UnixSocket.C132_nothing_else` | propext, Quot.sound |
| C132 | `UnixSocket.C132_controller_partial` | propext, Quot.sound |
| C132 | `UnixSocket.C132_controller_once` | propext, Quot.sound |
| C132 | `UnixSocket.C132_mode_partial` | propext |
| C132 | `UnixSocket.C132_mode_zero_violated` | propext |
| C132 | `UnixSocket.C132_file_violated` | propext, Quot.sound |
| C132 | `UnixSocket.C132_window_violated` | propext, Quot.sound |
| C132 | `UnixSocket.C132_group_violated` | propext, Quot.sound |
| C132 | `UnixSocket.C132_mode_failed_violated` | propext, Quot.sound |
| C132 | `UnixSocket.C132_listen_violated` | propext, Quot.sound |
| C132 | `UnixSocket.C132_left_violated` | propext, Quot.sound |
| C132 | `UnixSocket.C132_takeover_violated` | propext, Quot.sound |
| C133 | `Detector.C133_unit` | propext, Classical.choice, Quot.sound |
| C133 | `Detector.C133_partial` | propext, Classical.choice, Quot.sound |
| C133 | `Detector.C133_choice_partial` | propext, Classical.choice, Quot.sound |
| C133 | `Detector.C133_clamav_partial` | propext, Classical.choice, Quot.sound |
| C133 | `Detector.C133_inline_violated` | propext, Classical.choice, Quot.sound |
| C133 | `Detector.C133_expand_violated` | propext, Classical.choice, Quot.sound |
| C133 | `Detector.C133_reset_violated` | propext, Classical.choice, Quot.sound |
| C133 | `Detector.C133_continued_violated` | propext, Classical.choice, Quot.sound |
| C133 | `Detector.C133_override_violated` | propext, Classical.choice, Quot.sound |
| C134 | `Detector.C134_host_partial` | propext, Classical.choice, Quot.sound |
| C134 | `Detector.C134_any` | propext, Classical.choice, Quot.sound |
| C134 | `Detector.C134_path` | propext, Classical.choice, Quot.sound |
| C134 | `Detector.C134_ipv6_violated` | propext, Classical.choice, Quot.sound |
| C134 | `Detector.C134_no_proxy_violated` | propext, Classical.choice, Quot.sound |
| C135 | `Detector.C135_enabled_partial` | propext, Classical.choice, Quot.sound |
| C135 | `Detector.C135_socket_partial` | propext, Classical.choice, Quot.sound |
| C135 | `Detector.C135_arguments_partial` | propext, Classical.choice, Quot.sound |
| C135 | `Detector.C135_greylist_violated` | propext, Classical.choice, Quot.sound |
| C136 | `Detector.C136_enabled_partial` | propext, Classical.choice, Quot.sound |
| C136 | `Detector.C136_socket_partial` | propext, Classical.choice, Quot.sound |
| C136 | `Detector.C136_flags_partial` | propext, Classical.choice, Quot.sound |
| C136 | `Detector.C136_others` | propext, Classical.choice, Quot.sound |
| C136 | `Detector.C136_equals_violated` | propext, Classical.choice, Quot.sound |
| C136 | `Detector.C136_flags_violated` | propext, Classical.choice, Quot.sound |
| C136 | `Detector.C136_comment_violated` | propext, Classical.choice, Quot.sound |
| C136 | `Detector.C136_default_violated` | propext, Classical.choice, Quot.sound |
| C136 | `Detector.C136_first_violated` | propext, Classical.choice, Quot.sound |
| C136 | `Detector.C136_profiles_violated` | propext, Classical.choice, Quot.sound |
| C137 | `RubySettings.C137_last_partial` | propext, Classical.choice, Quot.sound |
| C137 | `RubySettings.C137_wrong` | propext, Classical.choice, Quot.sound |
| C137 | `RubySettings.C137_ignored_violated` | propext, Classical.choice, Quot.sound |
| C137 | `RubySettings.C137_maintenance_violated` | propext, Classical.choice, Quot.sound |
| C137 | `RubySettings.C137_order_violated` | propext, Classical.choice, Quot.sound |
| C137 | `RubySettings.C137_illegal_violated` | propext, Classical.choice, Quot.sound |
| C137 | `RubySettings.C137_name_violated` | propext, Classical.choice, Quot.sound |
| C137 | `RubySettings.C137_negative_violated` | propext, Classical.choice, Quot.sound |
| C138 | `C138_partial` | propext, Classical.choice, Quot.sound |
| C138 | `C138_refused_violated` | propext, Classical.choice, Quot.sound |
| C139 | `Upstart.C139_job` | propext, Classical.choice, Quot.sound |
| C139 | `Upstart.C139_clamav_partial` | propext, Classical.choice, Quot.sound |
| C139 | `Upstart.C139_greylist_partial` | propext, Classical.choice, Quot.sound |
| C139 | `Upstart.C139_choice` | propext |
| C139 | `Upstart.C139_command_partial` | propext, Classical.choice, Quot.sound |
| C139 | `Upstart.C139_other_violated` | propext, Classical.choice, Quot.sound |
| C139 | `Upstart.C139_command_violated` | propext, Classical.choice, Quot.sound |
| C139 | `Upstart.C139_comments_violated` | propext, Classical.choice, Quot.sound |
| C14 | `C14_delete` | propext, Classical.choice, Quot.sound |
| C14 | `C14_change` | propext, Classical.choice, Quot.sound |
| C14 | `C14_insert` | propext, Classical.choice, Quot.sound |
| C14 | `C14_add` | propext, Quot.sound |
| C14 | `C14_append` | none |
| C14 | `C14_remove` | propext, Classical.choice, Quot.sound |
| C14 | `C14_index` | propext, Classical.choice, Quot.sound |
| C14 | `C14_copy` | propext, Quot.sound |
| C14 | `C14_nth` | propext, Quot.sound |
| C14 | `C14_lookup` | propext, Quot.sound |
| C14 | `C14_find` | propext |
| C140 | `Pkgsrc.C140_enabled_partial` | propext, Classical.choice, Quot.sound |
| C140 | `Pkgsrc.C140_socket_partial` | propext, Classical.choice, Quot.sound |
| C140 | `Pkgsrc.C140_flags_partial` | propext, Classical.choice, Quot.sound |
| C140 | `Pkgsrc.C140_enma_partial` | propext, Classical.choice, Quot.sound |
| C140 | `Pkgsrc.C140_rcvar_violated` | propext, Classical.choice, Quot.sound |
| C141 | `C141_debian_partial` | propext, Classical.choice, Quot.sound |
| C141 | `C141_redhat_partial` | propext, Classical.choice, Quot.sound |
| C141 | `C141_config` | propext, Classical.choice, Quot.sound |
| C141 | `C141_value_violated` | propext, Classical.choice, Quot.sound |
| C141 | `C141_shebang_violated` | propext, Classical.choice, Quot.sound |
| C141 | `C141_tab_violated` | propext, Classical.choice, Quot.sound |
| C141 | `C141_empty_violated` | propext, Classical.choice, Quot.sound |
| C142 | `Python.C142_called_partial` | propext, Classical.choice, Quot.sound |
| C142 | `Python.C142_partial` | propext, Classical.choice, Quot.sound |
| C142 | `Python.C142_abort_resets` | propext, Classical.choice, Quot.sound |
| C142 | `Python.C142_empty_chunk_violated` | propext, Classical.choice, Quot.sound |
| C142 | `Python.C142_last_chunk_violated` | propext, Classical.choice, Quot.sound |
| C142 | `Python.C142_abort_violated` | propext, Classical.choice, Quot.sound |
| C142 | `Python.C142_no_session_violated` | propext, Classical.choice, Quot.sound |
| C143 | `Python.C143_partial` | propext, Classical.choice, Quot.sound |
| C143 | `Python.C143_leading_space_violated` | propext, Classical.choice, Quot.sound |
| C144 | `PythonSettings.C144_partial` | propext, Classical.choice, Quot.sound |
| C144 | `PythonSettings.C144_group_violated` | propext, Classical.choice, Quot.sound |
| C144 | `PythonSettings.C144_file_violated` | propext, Classical.choice, Quot.sound |
| C144 | `PythonSettings.C144_mode_violated` | propext, Classical.choice, Quot.sound |
| C144 | `PythonSettings.C144_fallback_violated` | propext, Classical.choice, Quot.sound |
| C144 | `PythonSettings.C144_two_files_violated` | propext, Classical.choice, Quot.sound |
| C145 | `Python.C145_partial` | propext, Classical.choice, Quot.sound |
| C145 | `Python.C145_continue_violated` | propext, Classical.choice, Quot.sound |
| C145 | `Python.C145_exception_violated` | propext, Classical.choice, Quot.sound |
| C145 | `Python.C145_reply_violated` | propext, Classical.choice, Quot.sound |
| C145 | `Python.C142_abort_violated` | propext, Classical.choice, Quot.sound |
| C146 | `Samples.C146_partial` | propext, Classical.choice, Quot.sound |
| C146 | `Samples.C146_next_violated` | propext, Classical.choice, Quot.sound |
| C146 | `Samples.C146_spelling_violated` | propext, Classical.choice, Quot.sound |
| C146 | `Samples.C146_patterns_violated` | propext, Classical.choice, Quot.sound |
| C146 | `Samples.C146_last_violated` | propext, Classical.choice, Quot.sound |
| C147 | `Samples.C147_partial` | propext, Classical.choice, Quot.sound |
| C147 | `Samples.C147_next_violated` | propext, Classical.choice, Quot.sound |
| C147 | `Samples.C147_last_violated` | propext, Classical.choice, Quot.sound |
| C148 | `Samples.C148_partial` | propext, Classical.choice, Quot.sound |
| C148 | `Samples.C148_next_violated` | propext, Classical.choice, Quot.sound |
| C148 | `Samples.C148_last_violated` | propext, Classical.choice, Quot.sound |
| C149 | `LogAnalyzer.C149_partial` | propext, Classical.choice, Quot.sound |
| C149 | `LogAnalyzer.C149_never_more` | propext, Classical.choice, Quot.sound |
| C149 | `LogAnalyzer.C149_milter_report_violated` | propext, Classical.choice, Quot.sound |
| C149 | `LogAnalyzer.C149_quarantine_violated` | propext, Classical.choice, Quot.sound |
| C149 | `LogAnalyzer.C149_order_violated` | propext, Classical.choice, Quot.sound |
| C15 | `C15_edited_partial` | propext, Classical.choice, Quot.sound |
| C15 | `C15_content_partial` | propext, Classical.choice, Quot.sound |
| C15 | `C15_unchanged` | propext, Quot.sound |
| C15 | `C15_order_violated` | propext, Classical.choice, Quot.sound |
| C15 | `C15_repeated_violated` | propext, Classical.choice, Quot.sound |
| C15 | `C15_reorder_violated` | propext, Classical.choice, Quot.sound |
| C150 | `Later.C150_partial` | propext, Classical.choice, Quot.sound |
| C150 | `Later.C150_external` | propext, Classical.choice, Quot.sound |
| C150 | `Later.C150_abort_violated` | propext, Classical.choice, Quot.sound |
| C150 | `Later.C150_status_violated` | propext, Classical.choice, Quot.sound |
| C151 | `Samples.C151_partial` | propext, Classical.choice, Quot.sound |
| C151 | `Samples.C151_spelling_violated` | propext, Classical.choice, Quot.sound |
| C152 | `SamplesPython.C152_partial` | propext, Classical.choice, Quot.sound |
| C152 | `SamplesPython.C152_encoding_violated` | propext, Classical.choice, Quot.sound |
| C152 | `SamplesPython.C152_next_violated` | propext, Classical.choice, Quot.sound |
| C152 | `SamplesPython.C152_last_violated` | propext, Classical.choice, Quot.sound |
| C153 | `Testing.C153_partial` | propext, Classical.choice, Quot.sound |
| C153 | `Testing.C153_headers_violated` | propext, Classical.choice, Quot.sound |
| C153 | `Testing.C153_lines_violated` | propext, Classical.choice, Quot.sound |
| C153 | `Testing.C153_reply_violated` | propext, Classical.choice, Quot.sound |
| C153 | `Testing.C153_error_violated` | propext, Classical.choice, Quot.sound |
| C153 | `Testing.C153_body_violated` | propext, Classical.choice, Quot.sound |
| C154 | `Module.C154_partial` | propext, Classical.choice, Quot.sound |
| C154 | `Module.C154_order` | propext, Quot.sound |
| C154 | `Module.C154_twice_violated` | propext |
| C154 | `Module.C154_dot_violated` | propext |
| C154 | `Module.C154_name_violated` | propext |
| C155 | `SessionResult.C155_partial` | propext, Classical.choice, Quot.sound |
| C155 | `SessionResult.C155_twice_violated` | propext |
| C155 | `SessionResult.C155_own_violated` | none |
| C156 | `TestClient.C156` | propext, Quot.sound |
| C157 | `Statistics.C157_partial` | propext, Classical.choice, Quot.sound |
| C157 | `Statistics.C157_cpu_violated` | propext, Quot.sound |
| C157 | `Statistics.C157_pid_violated` | propext |
| C157 | `Statistics.C157_fds_violated` | propext |
| C158 | `TestClientLibmilter.C158_partial` | propext, Quot.sound |
| C158 | `TestClientLibmilter.C158_wait_violated` | propext, Quot.sound |
| C159 | `PerformanceCheck.C159_partial` | propext, Classical.choice, Quot.sound |
| C159 | `PerformanceCheck.C159_hang_violated` | propext, Quot.sound |
| C16 | `C16_partial` | propext, Classical.choice, Quot.sound |
| C16 | `C16_library_calls` | propext, Classical.choice, Quot.sound |
| C16 | `C16_violated` | propext |
| C16 | `C16_unknown_violated` | propext |
| C160 | `PerformanceStatistics.C160_partial` | propext, Quot.sound |
| C160 | `PerformanceStatistics.C160_lost_violated` | propext, Quot.sound |
| C161 | `PerformanceEnvelope.C161_partial` | propext, Quot.sound |
| C161 | `PerformanceEnvelope.C161_name_violated` | propext |
| C162 | `PerformanceAnalyzer.C162_partial` | propext, Classical.choice, Quot.sound |
| C162 | `PerformanceAnalyzer.C162_midnight_violated` | none |
| C163 | `PerformancePeriod.C163_partial` | propext, Quot.sound |
| C163 | `PerformancePeriod.C163_lost_violated` | propext |
| C164 | `PerformanceOption.C164_partial` | propext, Quot.sound |
| C164 | `PerformanceOption.C164_point_violated` | propext |
| C165 | `PerformanceFlood.C165_partial` | propext, Classical.choice, Quot.sound |
| C165 | `PerformanceFlood.C165_empty_violated` | propext |
| C166 | `RubyLogger.C166_partial` | propext, Quot.sound |
| C166 | `RubyLogger.C166_backtrace_violated` | propext |
| C17 | `C17_cleared` | propext |
| C17 | `C17_lookup` | propext, Classical.choice, Quot.sound |
| C18 | `C18_union` | propext, Classical.choice, Quot.sound |
| C18 | `C18_order` | propext, Quot.sound |
| C19 | `C19_grammar` | propext, Classical.choice, Quot.sound |
| C19 | `C19_safe_partial` | propext, Classical.choice, Quot.sound |
| C19 | `C19_violated` | none |
| C19 | `C19_quote_violated` | none |
| C19 | `C19_merge_violated` | none |
| C20 | `C20_round_trip` | propext, Classical.choice, Quot.sound |
| C20 | `C20_inet_partial` | propext, Classical.choice, Quot.sound |
| C20 | `C20_bad_port` | propext, Classical.choice, Quot.sound |
| C20 | `C20_scheme` | propext, Classical.choice, Quot.sound |
| C20 | `C20_port_violated` | propext, Classical.choice, Quot.sound |
| C20 | `C20_long_path_violated` | propext, Classical.choice, Quot.sound |
| C21 | `C21` | propext, Classical.choice, Quot.sound |
| C22 | `C22_ordered` | propext |
| C22 | `C22_complete` | propext |
| C22 | `C22_flushed_partial` | propext, Classical.choice, Quot.sound |
| C22 | `C22_shutdown_violated` | propext |
| C22 | `C22_error_violated` | propext, Quot.sound |
| C23 | `C23_partial` | propext, Classical.choice, Quot.sound |
| C23 | `C23_stop_violated` | propext, Quot.sound |
| C23 | `C23_declined_violated` | propext, Quot.sound |
| C23 | `C23_disconnect_violated` | propext, Quot.sound |
| C23 | `C23_no_reply_violated` | propext, Quot.sound |
| C24 | `C24_partial` | propext, Classical.choice, Quot.sound |
| C24 | `C24_order_partial` | propext, Classical.choice, Quot.sound |
| C24 | `C24_writing_timeout_violated` | propext, Quot.sound |
| C24 | `C24_stale_code_violated` | propext, Quot.sound |
| C24 | `C24_shutdown_violated` | propext, Quot.sound |
| C25 | `C25_given_up` | propext, Classical.choice, Quot.sound |
| C25 | `C25_never_consulted_partial` | propext, Classical.choice, Quot.sound |
| C25 | `C25_disconnected` | propext, Classical.choice, Quot.sound |
| C25 | `C25_violated` | propext, Quot.sound |
| C26 | `C26_refusal_partial` | propext, Classical.choice, Quot.sound |
| C26 | `C26_modification` | propext, Classical.choice, Quot.sound |
| C26 | `C26_accept_violated` | propext, Quot.sound |
| C26 | `C26_code_violated` | propext, Quot.sound |
| C27 | `C27_no_effect` | propext, Classical.choice, Quot.sound |
| C27 | `C27_irrelevant` | propext, Quot.sound |
| C27 | `C27_progress` | propext, Quot.sound |
| C27 | `C27_dropped` | propext, Classical.choice, Quot.sound |
| C28 | `C28_partial` | propext, Classical.choice, Quot.sound |
| C28 | `C28_chain_partial` | propext, Classical.choice, Quot.sound |
| C28 | `C28_refusal_partial` | propext, Classical.choice, Quot.sound |
| C28 | `C28_empty_body_violated` | propext, Quot.sound |
| C28 | `C28_no_header_violated` | propext, Quot.sound |
| C28 | `C28_two_bodies_violated` | propext, Quot.sound |
| C28 | `C28_twice_violated` | propext, Quot.sound |
| C29 | `C29_partial` | propext, Classical.choice, Quot.sound |
| C29 | `C29_kept_partial` | propext, Classical.choice, Quot.sound |
| C29 | `C29_zero_violated` | propext, Quot.sound |
| C30 | `C30_abort` | propext, Quot.sound |
| C30 | `C30_reply` | propext, Classical.choice, Quot.sound |
| C30 | `C30_status_violated` | propext, Quot.sound |
| C30 | `C30_header_violated` | propext, Quot.sound |
| C30 | `C30_replaced_violated` | propext, Quot.sound |
| C31 | `C31` | propext, Classical.choice, Quot.sound |
| C32 | `C32_partial` | propext, Classical.choice, Quot.sound |
| C32 | `C32_refused` | propext, Classical.choice, Quot.sound |
| C32 | `C32_abort_quit` | propext, Quot.sound |
| C32 | `C32_violated` | propext, Quot.sound |
| C32 | `C32_body_timeout_violated` | propext, Quot.sound |
| C33 | `C33` | propext, Quot.sound |
| C34 | `C34_only_allowed` | propext, Quot.sound |
| C34 | `C34_error` | propext, Quot.sound |
| C34 | `C34_reported` | propext, Quot.sound |
| C35 | `C35` | propext, Quot.sound |
| C35 | `C35_calls` | propext, Quot.sound |
| C35 | `C35_on_behalf` | propext, Quot.sound |
| C36 | `C36` | propext, Classical.choice, Quot.sound |
| C36 | `C36_has_accepted` | propext, Classical.choice, Quot.sound |
| C36 | `C36_data_partial` | propext, Classical.choice, Quot.sound |
| C36 | `C36_second_refusal_violated` | propext, Quot.sound |
| C37 | `C37_partial` | propext, Quot.sound |
| C37 | `C37_small` | propext, Quot.sound |
| C37 | `C37_abort_violated` | propext, Quot.sound |
| C37 | `C37_end_violated` | propext, Quot.sound |
| C38 | `C38_partial` | propext, Classical.choice, Quot.sound |
| C38 | `C38_alone_partial` | propext, Classical.choice, Quot.sound |
| C38 | `C38_reply_partial` | propext, Classical.choice, Quot.sound |
| C38 | `C38_other_class_violated` | propext, Classical.choice, Quot.sound |
| C38 | `C38_earlier_command_violated` | propext, Classical.choice, Quot.sound |
| C38 | `C38_empty_text_violated` | propext, Classical.choice, Quot.sound |
| C39 | `C39_refused_partial` | propext, Quot.sound |
| C39 | `C39_accepted_partial` | propext, Quot.sound |
| C39 | `C39_quarantine_violated` | propext, Classical.choice, Quot.sound |
| C39 | `C39_recipient_parameters_violated` | propext, Classical.choice, Quot.sound |
| C39 | `C39_recipient_parameters_refused_violated` | propext, Classical.choice, Quot.sound |
| C40 | `C40_partial` | propext, Classical.choice, Quot.sound |
| C40 | `C40_decoded_partial` | propext, Classical.choice, Quot.sound |
| C40 | `C40_aborted_violated` | propext, Classical.choice, Quot.sound |
| C40 | `C40_empty_body_violated` | propext, Classical.choice, Quot.sound |
| C40 | `C40_empty_name_violated` | propext, Classical.choice, Quot.sound |
| C41 | `C41_partial` | propext, Classical.choice, Quot.sound |
| C41 | `C41_second_partial` | propext, Classical.choice, Quot.sound |
| C41 | `C41_late_partial` | propext, Classical.choice, Quot.sound |
| C41 | `C41_disconnected_partial` | propext, Quot.sound |
| C41 | `C41_modification` | propext, Quot.sound |
| C41 | `C41_nobody_violated` | propext, Quot.sound |
| C41 | `C41_body_violated` | propext, Quot.sound |
| C41 | `C41_refused_violated` | propext, Quot.sound |
| C41 | `C41_negotiation_violated` | propext, Quot.sound |
| C41 | `C41_negotiation_silent_violated` | propext, Quot.sound |
| C41 | `C41_code_violated` | propext, Quot.sound |
| C42 | `C42_commands` | propext, Classical.choice, Quot.sound |
| C42 | `C42_replies_partial` | propext, Classical.choice, Quot.sound |
| C42 | `C42_status_violated` | propext, Classical.choice, Quot.sound |
| C42 | `ControlSession.C42_reply_stream_partial` | propext, Classical.choice, Quot.sound |
| C42 | `C42_nul_violated` | propext, Classical.choice, Quot.sound |
| C42 | `C42_failure_violated` | propext, Classical.choice, Quot.sound |
| C43 | `C43_partial` | propext, Classical.choice, Quot.sound |
| C43 | `C43_violated` | propext, Classical.choice, Quot.sound |
| C44 | `C44` | propext, Quot.sound |
| C44 | `C44_deferred` | propext, Quot.sound |
| C45 | `C45_taken` | propext, Quot.sound |
| C45 | `C45_refused` | propext, Quot.sound |
| C45 | `C45_only` | propext, Quot.sound |
| C45 | `C45_condition` | propext |
| C46 | `C46` | propext, Quot.sound |
| C47 | `C47` | propext, Quot.sound |
| C47 | `C47_violated` | propext |
| C48 | `C48_partial` | propext, Classical.choice, Quot.sound |
| C48 | `C48_stage` | propext, Quot.sound |
| C48 | `C48_plain` | propext, Classical.choice, Quot.sound |
| C48 | `C48_braces_violated` | propext, Classical.choice, Quot.sound |
| C48 | `C48_other_stage_violated` | propext, Classical.choice, Quot.sound |
| C49 | `C49_partial` | propext, Classical.choice, Quot.sound |
| C50 | `C50_partial` | propext, Classical.choice, Quot.sound |
| C50 | `C50_no_reply_violated` | propext, Quot.sound |
| C50 | `C50_twice_violated` | propext, Classical.choice, Quot.sound |
| C51 | `C51_partial` | propext, Quot.sound |
| C51 | `C51_violated` | propext, Classical.choice, Quot.sound |
| C52 | `C52_partial` | propext, Quot.sound |
| C52 | `C52_waits` | propext, Classical.choice, Quot.sound |
| C52 | `C52_modification_violated` | propext, Classical.choice, Quot.sound |
| C52 | `C52_progress_violated` | propext, Classical.choice, Quot.sound |
| C53 | `C53_partial` | propext, Classical.choice, Quot.sound |
| C53 | `C53_nobody_violated` | propext, Quot.sound |
| C53 | `C53_no_milter_violated` | propext, Quot.sound |
| C53 | `C53_code_violated` | propext, Quot.sound |
| C53 | `C53_stale_code_violated` | propext, Quot.sound |
| C54 | `C54_partial` | propext, Classical.choice, Quot.sound |
| C54 | `C54_fallback_violated` | none |
| C54 | `C54_order_violated` | none |
| C55 | `C55_partial` | propext, Quot.sound |
| C55 | `C55_unresolved_violated` | none |
| C56 | `C56_partial` | propext, Classical.choice, Quot.sound |
| C56 | `C56_refusal_partial` | propext, Classical.choice, Quot.sound |
| C57 | `C57_partial` | propext, Classical.choice, Quot.sound |
| C57 | `C57_empty_body_violated` | propext, Quot.sound |
| C58 | `C58` | propext, Classical.choice, Quot.sound |
| C58 | `C58_enum` | propext, Classical.choice, Quot.sound |
| C59 | `C59_log_partial` | propext, Classical.choice, Quot.sound |
| C59 | `C59_syslog_partial` | propext, Classical.choice, Quot.sound |
| C59 | `C59_names` | propext, Classical.choice, Quot.sound |
| C59 | `C59_property_violated` | propext, Classical.choice, Quot.sound |
| C59 | `C59_nothing_violated` | propext, Classical.choice, Quot.sound |
| C60 | `C60_partial` | propext, Classical.choice, Quot.sound |
| C60 | `C60_disposed` | propext, Classical.choice, Quot.sound |
| C60 | `C60_accept_loop_violated` | propext, Quot.sound |
| C60 | `C60_destroyed_violated` | propext, Quot.sound |
| C60 | `C60_destroyed_partial` | propext, Classical.choice, Quot.sound |
| C61 | `C61_limit_partial` | propext, Classical.choice, Quot.sound |
| C61 | `C61_accept_partial` | propext, Classical.choice, Quot.sound |
| C61 | `C61_stall_violated` | propext, Quot.sound |
| C62 | `C62_partial` | propext, Classical.choice, Quot.sound |
| C62 | `C62_never_violated` | propext, Quot.sound |
| C63 | `C63_partial` | propext, Classical.choice, Quot.sound |
| C63 | `C63_no_more` | propext, Classical.choice, Quot.sound |
| C64 | `C64_partial` | propext, Quot.sound |
| C64 | `C64_worker_violated` | propext, Quot.sound |
| C65 | `C65` | propext, Classical.choice, Quot.sound |
| C65 | `C65_finished` | propext, Classical.choice, Quot.sound |
| C66 | `C66_turn_partial` | propext, Classical.choice, Quot.sound |
| C66 | `C66_interval` | propext, Classical.choice, Quot.sound |
| C66 | `C66_timer_partial` | propext, Classical.choice, Quot.sound |
| C66 | `C66_timer_violated` | propext, Quot.sound |
| C67 | `LibMilter.C67_partial` | propext, Quot.sound |
| C67 | `LibMilter.C67_body_partial` | propext, Quot.sound |
| C67 | `LibMilter.C67_close` | propext, Quot.sound |
| C67 | `LibMilter.C67_last_chunk_violated` | propext, Classical.choice, Quot.sound |
| C67 | `LibMilter.C67_abort_unknown_violated` | propext, Classical.choice, Quot.sound |
| C67 | `LibMilter.C67_abort_decided_violated` | propext, Classical.choice, Quot.sound |
| C67 | `LibMilter.C67_quit_violated` | propext, Classical.choice, Quot.sound |
| C68 | `LibMilter.C68_partial` | propext, Classical.choice, Quot.sound |
| C69 | `LibMilter.C69_partial` | propext, Quot.sound |
| C69 | `LibMilter.C69_steps_violated` | propext, Classical.choice, Quot.sound |
| C69 | `LibMilter.C69_silent_violated` | propext, Quot.sound |
| C69 | `LibMilter.C69_context_violated` | propext, Quot.sound |
| C69 | `LibMilter.C69_symbols_violated` | propext, Quot.sound |
| C70 | `LibMilter.C70_partial` | propext, Classical.choice, Quot.sound |
| C70 | `LibMilter.C70_digits` | propext |
| C70 | `LibMilter.C70_code_violated` | propext, Classical.choice, Quot.sound |
| C70 | `LibMilter.C70_quarantine_violated` | propext, Classical.choice, Quot.sound |
| C71 | `LibMilter.C71_settings` | propext, Classical.choice, Quot.sound |
| C71 | `LibMilter.C71_refused` | propext, Classical.choice, Quot.sound |
| C71 | `LibMilter.C71_debug_partial` | propext, Classical.choice, Quot.sound |
| C71 | `LibMilter.C71_debug_violated` | propext, Classical.choice, Quot.sound |
| C72 | `Reader.C72_faithful` | propext |
| C72 | `Reader.C72_complete_partial` | propext, Classical.choice, Quot.sound |
| C72 | `Reader.C72_ends_partial` | propext, Classical.choice, Quot.sound |
| C72 | `Reader.C72_violated` | propext |
| C73 | `Reader.C73_end` | propext, Quot.sound |
| C73 | `Reader.C73_memory_partial` | propext |
| C73 | `Reader.C73_memory_violated` | propext |
| C73 | `Reader.C73_stop_violated` | propext |
| C74 | `Reader.C74_commands` | propext, Classical.choice, Quot.sound |
| C74 | `Reader.C74_commands_all` | propext, Classical.choice, Quot.sound |
| C74 | `Reader.C74_replies` | propext, Classical.choice, Quot.sound |
| C74 | `Reader.C74_replies_all` | propext, Classical.choice, Quot.sound |
| C75 | `LibMilter.C75` | propext, Classical.choice, Quot.sound |
| C76 | `EventLoop.C76_partial` | propext, Classical.choice, Quot.sound |
| C76 | `EventLoop.C76_first_partial` | propext, Classical.choice, Quot.sound |
| C76 | `EventLoop.C76_callable_partial` | propext, Classical.choice, Quot.sound |
| C76 | `EventLoop.C76_violated` | propext, Classical.choice, Quot.sound |
| C76 | `EventLoop.C76_zero_interval_violated` | propext, Quot.sound |
| C77 | `EventLoop.C77` | propext, Quot.sound |
| C78 | `Reader.C78_read` | propext, Quot.sound |
| C78 | `Reader.C78_error` | propext |
| C78 | `Reader.C78_shutdown` | propext |
| C78 | `Reader.C78_ends` | propext, Quot.sound |
| C79 | `Configuration.C79_partial` | propext, Classical.choice, Quot.sound |
| C79 | `Configuration.C79_history_partial` | propext, Classical.choice, Quot.sound |
| C79 | `Configuration.C79_violated` | propext, Classical.choice, Quot.sound |
| C79 | `Configuration.C79_load_path_violated` | propext, Classical.choice, Quot.sound |
| C80 | `Configuration.C80_partial` | propext, Classical.choice, Quot.sound |
| C80 | `Configuration.C80_violated` | propext, Classical.choice, Quot.sound |
| C81 | `Configuration.C81_partial` | propext, Classical.choice, Quot.sound |
| C81 | `Configuration.C81_only` | propext, Classical.choice, Quot.sound |
| C81 | `Configuration.C81_violated` | propext, Classical.choice, Quot.sound |
| C82 | `Configuration.C82_partial` | propext, Classical.choice, Quot.sound |
| C82 | `Configuration.C82_hangup_partial` | propext, Classical.choice, Quot.sound |
| C82 | `Configuration.C82_controller_partial` | propext, Classical.choice, Quot.sound |
| C82 | `Configuration.C82_violated` | propext, Classical.choice, Quot.sound |
| C82 | `Configuration.C82_packet_buffer_size_violated` | propext, Classical.choice, Quot.sound |
| C82 | `Configuration.C82_syslog_violated` | propext, Classical.choice, Quot.sound |
| C83 | `Configuration.C83_partial` | propext, Classical.choice, Quot.sound |
| C83 | `Configuration.C83_violated` | propext, Classical.choice, Quot.sound |
| C84 | `Configuration.C84_partial` | propext, Classical.choice, Quot.sound |
| C84 | `Configuration.C84_violated` | propext, Classical.choice, Quot.sound |
| C85 | `Xml.C85_partial` | propext, Classical.choice, Quot.sound |
| C85 | `Xml.C85_violated` | propext, Classical.choice, Quot.sound |
| C85 | `Xml.C85_carriage_return_violated` | propext, Classical.choice, Quot.sound |
| C86 | `XmlLoader.C86_partial` | propext, Classical.choice, Quot.sound |
| C86 | `XmlLoader.C86_back_partial` | propext, Classical.choice, Quot.sound |
| C86 | `XmlLoader.C86_violated` | propext, Classical.choice, Quot.sound |
| C86 | `XmlLoader.C86_conditions_violated` | propext, Classical.choice, Quot.sound |
| C86 | `XmlLoader.C86_command_violated` | propext, Classical.choice, Quot.sound |
| C87 | `Agent.C87_partial` | propext, Quot.sound |
| C87 | `Agent.C87_ends` | propext, Quot.sound |
| C87 | `Agent.C87_violated` | propext |
| C87 | `Agent.C87_unstarted_violated` | none |
| C88 | `Privilege.C88_partial` | propext, Classical.choice, Quot.sound |
| C88 | `Privilege.C88_not_root` | propext, Classical.choice, Quot.sound |
| C88 | `Privilege.C88_refused` | propext, Classical.choice, Quot.sound |
| C88 | `Privilege.C88_serves` | propext, Classical.choice, Quot.sound |
| C88 | `Privilege.C88_violated` | propext, Classical.choice, Quot.sound |
| C88 | `Privilege.C88_socket_violated` | propext, Classical.choice, Quot.sound |
| C89 | `Launcher.C89_answered` | propext, Quot.sound |
| C89 | `Launcher.C89_identity_partial` | propext, Quot.sound |
| C89 | `Launcher.C89_once` | propext, Classical.choice, Quot.sound |
| C89 | `Launcher.C89_again` | propext, Classical.choice, Quot.sound |
| C89 | `Launcher.C89_violated` | propext, Quot.sound |
| C89 | `Launcher.C89_not_root_violated` | propext, Quot.sound |
| C90 | `Conditions.C90_stop_partial` | propext, Quot.sound |
| C90 | `Conditions.C90_not_asked` | propext, Quot.sound |
| C90 | `Conditions.C90_pure` | propext, Quot.sound |
| C90 | `Conditions.C90_macros_partial` | propext, Classical.choice, Quot.sound |
| C90 | `Conditions.C90_body_violated` | propext, Classical.choice, Quot.sound |
| C90 | `Conditions.C90_body_blind_violated` | propext |
| C90 | `Conditions.C90_helo_violated` | propext |
| C91 | `Conditions.C91_remote_network` | propext, Classical.choice, Quot.sound |
| C91 | `Conditions.C91_local_or_remote` | propext |
| C92 | `Conditions.C92_exactly` | propext, Classical.choice, Quot.sound |
| C92 | `Conditions.C92_alike_partial` | propext, Classical.choice, Quot.sound |
| C92 | `Conditions.C92_last_decides` | propext, Classical.choice, Quot.sound |
| C92 | `Conditions.C92_order_violated` | propext, Classical.choice, Quot.sound |
| C93 | `Conditions.C93_authenticated` | propext, Classical.choice, Quot.sound |
| C93 | `Conditions.C93_told` | propext, Classical.choice, Quot.sound |
| C93 | `Conditions.C93_braces` | propext, Quot.sound |
| C94 | `Tables.C94_variables` | propext, Quot.sound |
| C94 | `Tables.C94_rules` | propext, Classical.choice, Quot.sound |
| C94 | `Tables.C94_conditions_partial` | propext, Classical.choice, Quot.sound |
| C94 | `Tables.C94_after_partial` | propext, Quot.sound |
| C94 | `Tables.C94_refused` | none |
| C94 | `Tables.C94_unended` | propext, Quot.sound |
| C94 | `Tables.C94_endif_violated` | propext, Classical.choice, Quot.sound |
| C94 | `Tables.C94_twice_violated` | propext, Classical.choice, Quot.sound |
| C94 | `Tables.C94_stray_endif_violated` | propext, Classical.choice, Quot.sound |
| C94 | `Tables.C94_flag_violated` | none |
| C95 | `Tables.C95_first` | propext, Quot.sound |
| C96 | `Netstat.C96_disconnected_partial` | propext, Classical.choice, Quot.sound |
| C96 | `Netstat.C96_check` | propext |
| C96 | `Netstat.C96_lifetime_violated` | propext, Classical.choice, Quot.sound |
| C96 | `Netstat.C96_mapped_violated` | propext, Classical.choice, Quot.sound |
| C97 | `C97_partial` | propext, Classical.choice, Quot.sound |
| C98 | `Workers.C98_served_partial` | propext, Classical.choice, Quot.sound |
| C98 | `Workers.C98_ends` | propext, Classical.choice, Quot.sound |
| C98 | `Workers.C98_orphan_partial` | propext, Classical.choice, Quot.sound |
| C98 | `Workers.C98_limit_partial` | propext, Classical.choice, Quot.sound |
| C98 | `Workers.C98_limit_violated` | propext, Quot.sound |
| C98 | `Workers.C98_reload_violated` | propext, Quot.sound |
| C98 | `Workers.C98_replaced_violated` | propext, Quot.sound |
| C98 | `Workers.C98_waits_violated` | propext, Quot.sound |
| C98 | `Workers.C98_orphan_violated` | propext, Quot.sound |
| C99 | `C99_reading_partial` | propext, Classical.choice, Quot.sound |
| C99 | `C99_message_partial` | propext, Classical.choice, Quot.sound |
| C99 | `C99_refusal_partial` | propext, Classical.choice, Quot.sound |
| C99 | `C99_late_violated` | propext, Quot.sound |
| C99 | `C99_both_violated` | propext, Quot.sound |
| C99 | `C99_next_violated` | propext, Quot.sound |
