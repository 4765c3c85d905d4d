# Axioms of the property theorems

Generated by `tools/axioms.py` from `#print axioms`.

## none (4 theorems)

* `Bento.C04_withLeft_false`
* `Bento.C04_withLeft_actual`
* `Bento.C41_last_next_false`
* `Bento.C41_between_renders_false`

## propext (40 theorems)

* `Bento.C04_padding_builders_partial`
* `Bento.C24_small_panics`
* `Bento.C27_replacement_false`
* `Bento.C27_split_start_false`
* `Bento.C29_split_false`
* `Bento.C29_short_split_false`
* `Bento.C40_offset_false`
* `Bento.C40_padding_false`
* `Bento.C48_restart_false`
* `Bento.C54_cancel_false`
* `Bento.C54_error_false`
* `Bento.C54_init_false`
* `Bento.C54_command_false`
* `Bento.C54_sequence_false`
* `Bento.C56_siblings_false`
* `Bento.C62_focus_partial`
* `Bento.C63_introducer_partial`
* `Bento.C63_swallowed_false`
* `Bento.C75_error_false`
* `Bento.C88_panic_false`
* `Bento.C88_last_draw_false`
* `Bento.C94_same_variables`
* `Bento.C101_alone`
* `Bento.C108_layout`
* `Bento.C108_line`
* `Bento.C108_text`
* `Bento.C108_title`
* `Bento.C108_list`
* `Bento.C108_input`
* `Bento.C108_paragraph`
* `Bento.C108_popup`
* `Bento.C109_twice_false`
* `Bento.C113_rxvt_false`
* `Bento.C129_nothing_false`
* `Bento.C131_restored_partial`
* `Bento.C131_last`
* `Bento.C131_no_terminal`
* `Bento.C131_twice_false`
* `Bento.C134_overtaken_false`
* `Bento.C134_unregistered_false`

## propext, Classical.choice, Quot.sound (409 theorems)

* `Bento.C01_intersection_is_set_intersection`
* `Bento.C01_intersection_nonneg`
* `Bento.C01_intersection_comm`
* `Bento.C01_intersection_assoc`
* `Bento.C02_rows_partition`
* `Bento.C02_columns_partition`
* `Bento.C03_inner_mem`
* `Bento.C03_inner_subset`
* `Bento.C03_indentX`
* `Bento.C03_inner_nonneg`
* `Bento.C05_setStyle_patched`
* `Bento.C05_patched_assoc`
* `Bento.C05_new_unit`
* `Bento.C05_setStyle_modifiers`
* `Bento.C06_chain_consistent`
* `Bento.C06_patched_consistent`
* `Bento.C06_last_mention_wins`
* `Bento.C07_write_independent`
* `Bento.C07_shape_invariant`
* `Bento.C08_setStyle_exact`
* `Bento.C08_setStyle_symbols`
* `Bento.C09_setStringN_partial`
* `Bento.C09_setStringN_narrow_partial`
* `Bento.C09_wide_at_edge_panics`
* `Bento.C09_wide_exceeds_budget`
* `Bento.C09_zero_width_not_skipped`
* `Bento.C09_zero_width_panics`
* `Bento.C09_exact_partial`
* `Bento.C10_diff_is_correct_patch`
* `Bento.C10_overlapping_wide_false`
* `Bento.C11_reported_once_in_order`
* `Bento.C11_self_diff_empty`
* `Bento.C11_width_three_false`
* `Bento.C11_reported_only_if_needed`
* `Bento.C12_screen_shows_frame`
* `Bento.C12_resize_clear_total`
* `Bento.C12_ascii_profile_false`
* `Bento.C13_frame_starts_blank`
* `Bento.C13_frame_independent_of_history`
* `Bento.C14_transition_partial`
* `Bento.C14_hidden_false`
* `Bento.C14_blink_false`
* `Bento.C15_pen_and_cursor`
* `Bento.C16_commands_decode_partial`
* `Bento.C16_nil_and_no_colour_false`
* `Bento.C17_retry_opaque_partial`
* `Bento.C17_resize_retry_partial`
* `Bento.C17_dirty_after_failure_false`
* `Bento.C18_well_formed_partial`
* `Bento.C18_almost_surely_partial`
* `Bento.C18_sixteen_columns_false`
* `Bento.C19_tiles_partial`
* `Bento.C19_many_segments_false`
* `Bento.C19_almost_surely_partial`
* `Bento.C19_twenty_rows_false`
* `Bento.C20_fetch_reports_values`
* `Bento.C20_required_hold_partial`
* `Bento.C20_many_variables_false`
* `Bento.C21_minimal_violation_partial`
* `Bento.C22_variables_distinct_partial`
* `Bento.C22_symbol_budget`
* `Bento.C22_many_variables_false`
* `Bento.C23_monotone`
* `Bento.C23_integral`
* `Bento.C23_edge_moves`
* `Bento.C23_growth`
* `Bento.C23_growth_any`
* `Bento.C23_growth_attained`
* `Bento.C24_pairs_exactly`
* `Bento.C24_pairs_of_segments`
* `Bento.C25_progress`
* `Bento.C25_accounts`
* `Bento.C25_idle_partial`
* `Bento.C26_longest`
* `Bento.C26_sequence`
* `Bento.C26_alt`
* `Bento.C26_unique`
* `Bento.C27_paste_partial`
* `Bento.C27_text_partial`
* `Bento.C27_chunks_partial`
* `Bento.C28_sgr`
* `Bento.C29_text_partial`
* `Bento.C30_names_partial`
* `Bento.C30_paste_partial`
* `Bento.C30_text_false`
* `Bento.C30_alt_false`
* `Bento.C30_paste_false`
* `Bento.C31_lines_join_partial`
* `Bento.C31_lines_count_partial`
* `Bento.C31_lost_false`
* `Bento.C31_exact_partial`
* `Bento.C31_bytes`
* `Bento.C32_span_confined`
* `Bento.C32_line_confined`
* `Bento.C32_text_confined`
* `Bento.C33_line_shown`
* `Bento.C33_text_shown`
* `Bento.C34_single_line_partial`
* `Bento.C34_two_lines_false`
* `Bento.C34_run_on_partial`
* `Bento.C35_text_preserved`
* `Bento.C35_blanks`
* `Bento.C35_narrow_false`
* `Bento.C35_rows_fit_partial`
* `Bento.C35_long_word_false`
* `Bento.C35_wide_false`
* `Bento.C35_rows_wide_partial`
* `Bento.C36_confined_partial`
* `Bento.C36_outside_false`
* `Bento.C36_long_word_false`
* `Bento.C36_negative_scroll_false`
* `Bento.C37_editor`
* `Bento.C38_word_partial`
* `Bento.C38_word_spec`
* `Bento.C38_residue_false`
* `Bento.C38_typing_false`
* `Bento.C39_window_partial`
* `Bento.C39_session_partial`
* `Bento.C39_shown_partial`
* `Bento.C39_end_false`
* `Bento.C39_paste_false`
* `Bento.C39_resize_false`
* `Bento.C39_narrow_false`
* `Bento.C39_visible_partial`
* `Bento.C40_window`
* `Bento.C40_selected_visible`
* `Bento.C40_stays`
* `Bento.C41_keys`
* `Bento.C41_render`
* `Bento.C41_selected`
* `Bento.C41_session_partial`
* `Bento.C42_inner_inside`
* `Bento.C42_inner_exact`
* `Bento.C43_frame_only_partial`
* `Bento.C43_inner_kept_partial`
* `Bento.C43_borderless_partial`
* `Bento.C43_outside_false`
* `Bento.C44_last`
* `Bento.C45_right_partial`
* `Bento.C45_inside_partial`
* `Bento.C45_left_false`
* `Bento.C45_horizontal_false`
* `Bento.C46_in_range`
* `Bento.C46_session`
* `Bento.C47_columns`
* `Bento.C47_cells_partial`
* `Bento.C47_unicode_partial`
* `Bento.C47_percent`
* `Bento.C47_ratio_false`
* `Bento.C47_overflow_false`
* `Bento.C48_one_timer`
* `Bento.C48_one_frame`
* `Bento.C48_stale_partial`
* `Bento.C48_frame_count`
* `Bento.C49_clear_partial`
* `Bento.C49_fill_partial`
* `Bento.C49_outside_false`
* `Bento.C50_popup_partial`
* `Bento.C50_content_false`
* `Bento.C50_almost_surely`
* `Bento.C50_placed`
* `Bento.C50_padding_false`
* `Bento.C52_in_order`
* `Bento.C53_update_partial`
* `Bento.C53_life_partial`
* `Bento.C53_origin_partial`
* `Bento.C53_batch_false`
* `Bento.C55_command_partial`
* `Bento.C56_linear_partial`
* `Bento.C56_receiver_partial`
* `Bento.C56_room_false`
* `Bento.C57_confined_partial`
* `Bento.C57_block_partial`
* `Bento.C57_outside_false`
* `Bento.C57_wide_false`
* `Bento.C57_zero_width_false`
* `Bento.C58_almost_surely_partial`
* `Bento.C58_no_false_refusal_partial`
* `Bento.C58_refuses_contradictions_partial`
* `Bento.C59_second_fetch_false`
* `Bento.C59_first_fetch_partial`
* `Bento.C60_almost_surely_partial`
* `Bento.C60_lengths_exact_partial`
* `Bento.C60_many_segments_false`
* `Bento.C60_hidden_rows_false`
* `Bento.C61_almost_surely_partial`
* `Bento.C61_fill_shares_partial`
* `Bento.C64_first_lines_partial`
* `Bento.C64_third_line_false`
* `Bento.C65_line_background_partial`
* `Bento.C65_line_style_false`
* `Bento.C66_overlong_line_fills_partial`
* `Bento.C66_tab_false`
* `Bento.C67_border_cells`
* `Bento.C67_beside_titles`
* `Bento.C68_title_shown`
* `Bento.C69_fitting_lines_partial`
* `Bento.C69_whitespace_line_false`
* `Bento.C70_rows_shown`
* `Bento.C70_laid_out`
* `Bento.C71_line_styles`
* `Bento.C72_list_partial`
* `Bento.C72_outside_false`
* `Bento.C73_bar_partial`
* `Bento.C73_horizontal_false`
* `Bento.C74_confined`
* `Bento.C74_almost_surely`
* `Bento.C75_no_leak_partial`
* `Bento.C76_update`
* `Bento.C77_strip_partial`
* `Bento.C77_symbols_partial`
* `Bento.C77_select_outside`
* `Bento.C78_print_partial`
* `Bento.C78_wide_false`
* `Bento.C79_newBuffer_partial`
* `Bento.C79_zero_width_false`
* `Bento.C80_fixed_order`
* `Bento.C80_never_trapped`
* `Bento.C80_almost_surely`
* `Bento.C80_split_never_trapped`
* `Bento.C80_split_almost_surely`
* `Bento.C81_almost_surely_partial`
* `Bento.C81_different_kinds_partial`
* `Bento.C81_definite_partial`
* `Bento.C81_growing_partial`
* `Bento.C81_yielding_partial`
* `Bento.C81_same_result_false`
* `Bento.C81_same_result_without_gaps_false`
* `Bento.C81_returns_false`
* `Bento.C81_equally_good_partial`
* `Bento.C81_one_fill_partial`
* `Bento.C82_almost_surely_partial`
* `Bento.C82_definite_sizes_partial`
* `Bento.C82_single_between_false`
* `Bento.C83_outer_space_false`
* `Bento.C83_two_buttons_false`
* `Bento.C83_inner_gaps_partial`
* `Bento.C84_corner_partial`
* `Bento.C85_almost_surely_partial`
* `Bento.C85_cheapest_row_partial`
* `Bento.C85_fractions_false`
* `Bento.C86_single_segment`
* `Bento.C86_same_result`
* `Bento.C86_almost_surely`
* `Bento.C86_exact_length`
* `Bento.C87_steady_partial`
* `Bento.C87_ellipsis_false`
* `Bento.C89_helpers`
* `Bento.C89_hex_round_trip`
* `Bento.C89_rgb`
* `Bento.C90_growing`
* `Bento.C90_almost_surely`
* `Bento.C91_yielding`
* `Bento.C91_almost_surely`
* `Bento.C92_titles_in_order`
* `Bento.C93_names`
* `Bento.C94_split_undisturbed`
* `Bento.C94_numbering`
* `Bento.C95_fair`
* `Bento.C95_almost_surely`
* `Bento.C95_fair_cells`
* `Bento.C96_float64_exact`
* `Bento.C96_any_rounding`
* `Bento.C96_float64_tiles`
* `Bento.C96_percentage_false`
* `Bento.C97_text`
* `Bento.C97_block`
* `Bento.C97_paragraph`
* `Bento.C97_list`
* `Bento.C97_input`
* `Bento.C97_popup`
* `Bento.C97_throbber`
* `Bento.C97_output`
* `Bento.C97_printed_partial`
* `Bento.C97_tabs_false`
* `Bento.C97_gauge_false`
* `Bento.C98_span_exact`
* `Bento.C98_spells_partial`
* `Bento.C98_wide_false`
* `Bento.C99_row`
* `Bento.C99_shown`
* `Bento.C99_almost_surely`
* `Bento.C100_line`
* `Bento.C100_fits`
* `Bento.C100_styles`
* `Bento.C100_text`
* `Bento.C100_cells`
* `Bento.C101_widgets`
* `Bento.C101_segments`
* `Bento.C102_frame`
* `Bento.C102_screen`
* `Bento.C102_text`
* `Bento.C103_mixed`
* `Bento.C104_typed`
* `Bento.C104_screen`
* `Bento.C105_waiting`
* `Bento.C105_shell`
* `Bento.C105_succeeds`
* `Bento.C105_panic_false`
* `Bento.C105_waiting_reached`
* `Bento.C106_selection`
* `Bento.C106_screen`
* `Bento.C106_letters_false`
* `Bento.C106_word_false`
* `Bento.C107_frame`
* `Bento.C107_screen`
* `Bento.C107_text`
* `Bento.C108_block`
* `Bento.C108_block_sides`
* `Bento.C108_tabs`
* `Bento.C108_gauge`
* `Bento.C109_again_partial`
* `Bento.C109_blank_false`
* `Bento.C110_text`
* `Bento.C110_list`
* `Bento.C110_paragraph_partial`
* `Bento.C110_ignored_false`
* `Bento.C110_centred_false`
* `Bento.C111_block`
* `Bento.C111_list`
* `Bento.C112_panels`
* `Bento.C112_quits`
* `Bento.C112_bytes`
* `Bento.C112_frame`
* `Bento.C112_cover`
* `Bento.C112_screen`
* `Bento.C113_keys`
* `Bento.C113_escape`
* `Bento.C113_controls`
* `Bento.C113_table`
* `Bento.C113_delete_false`
* `Bento.C114_report`
* `Bento.C114_motion`
* `Bento.C115_whole`
* `Bento.C115_form`
* `Bento.C116_words_partial`
* `Bento.C116_trimmed`
* `Bento.C116_leading_false`
* `Bento.C117_rows_filled`
* `Bento.C117_next`
* `Bento.C118_cells`
* `Bento.C118_cursor`
* `Bento.C118_screen`
* `Bento.C119_typed`
* `Bento.C119_quits`
* `Bento.C119_no_panic`
* `Bento.C119_frame`
* `Bento.C119_screen`
* `Bento.C120_one_tick`
* `Bento.C120_goes_on`
* `Bento.C120_example`
* `Bento.C121_frame`
* `Bento.C121_cover`
* `Bento.C121_any_size`
* `Bento.C121_screen`
* `Bento.C122_text`
* `Bento.C122_list`
* `Bento.C123_nearest`
* `Bento.C123_window`
* `Bento.C123_drawn`
* `Bento.C124_state`
* `Bento.C124_frame`
* `Bento.C124_quits`
* `Bento.C124_screen`
* `Bento.C125_rows`
* `Bento.C125_cells`
* `Bento.C125_page`
* `Bento.C125_screen`
* `Bento.C126_gaps_first`
* `Bento.C126_gaps_exact`
* `Bento.C126_rest`
* `Bento.C126_even_gaps`
* `Bento.C126_apart`
* `Bento.C126_almost_surely`
* `Bento.C126_nested`
* `Bento.C126_draw`
* `Bento.C127_block`
* `Bento.C127_page`
* `Bento.C127_content`
* `Bento.C127_screen`
* `Bento.C128_started`
* `Bento.C128_update`
* `Bento.C128_init`
* `Bento.C128_sequence`
* `Bento.C128_input`
* `Bento.C128_size`
* `Bento.C129_cursor_partial`
* `Bento.C129_plain_partial`
* `Bento.C129_control_partial`
* `Bento.C129_text_partial`
* `Bento.C129_silent`
* `Bento.C129_brackets_false`
* `Bento.C129_at_sign_false`
* `Bento.C129_page_false`
* `Bento.C130_gestures`
* `Bento.C133_every_frame`
* `Bento.C133_next`
* `Bento.C133_example`
* `Bento.C134_settles`
* `Bento.C136_seen`
* `Bento.C136_at_last`
* `Bento.C137_assign`
* `Bento.C137_length`
* `Bento.C137_split`
* `Bento.C137_unwrap`
* `Bento.C138_fills`
* `Bento.C138_keeps`
* `Bento.C139_order`
* `Bento.C139_taken`

## propext, Quot.sound (59 theorems)

* `Bento.C01_intersection_absorbs`
* `Bento.C02_rows_eq`
* `Bento.C02_columns_eq`
* `Bento.C03_inner_empty`
* `Bento.C05_setStyle_symbol`
* `Bento.C05_setStyle_colors`
* `Bento.C06_modifiers_distinct`
* `Bento.C07_posOf_indexOf`
* `Bento.C07_indexOf_posOf`
* `Bento.C07_cellAt_total`
* `Bento.C07_newFilled`
* `Bento.C07_reset`
* `Bento.C11_single_width_minimal`
* `Bento.C16_number_round_trip`
* `Bento.C25_full_read_false`
* `Bento.C28_x10`
* `Bento.C31_long_line_false`
* `Bento.C33_fits`
* `Bento.C33_cut`
* `Bento.C37_text`
* `Bento.C41_direction`
* `Bento.C44_parts_sum`
* `Bento.C44_first`
* `Bento.C44_monotone`
* `Bento.C45_vertical_partial`
* `Bento.C46_moves`
* `Bento.C51_sequential`
* `Bento.C51_waiting`
* `Bento.C51_result`
* `Bento.C52_given_up`
* `Bento.C52_every_sequence`
* `Bento.C53_batch`
* `Bento.C54_quit_partial`
* `Bento.C54_panic_partial`
* `Bento.C55_can_return_partial`
* `Bento.C55_draw_false`
* `Bento.C55_cancel_false`
* `Bento.C57_narrow_cuts`
* `Bento.C62_shared_read_false`
* `Bento.C74_cycle`
* `Bento.C76_draw`
* `Bento.C88_quit`
* `Bento.C88_calm_partial`
* `Bento.C89_last_colour_wins`
* `Bento.C93_sensible`
* `Bento.C94_own_variables`
* `Bento.C98_decomposition`
* `Bento.C100_overlong`
* `Bento.C101_order`
* `Bento.C108_defaults`
* `Bento.C130_between`
* `Bento.C132_sizes`
* `Bento.C132_last`
* `Bento.C134_last_size_partial`
* `Bento.C134_unchanged`
* `Bento.C135_cancelled`
* `Bento.C135_reported`
* `Bento.C135_spent`
* `Bento.C135_again`
