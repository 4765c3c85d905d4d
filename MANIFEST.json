{
 "claims": [
  {
   "property": "C01",
   "status": "proved",
   "theorems": [
    "Bento.C01_intersection_is_set_intersection",
    "Bento.C01_intersection_nonneg",
    "Bento.C01_intersection_comm",
    "Bento.C01_intersection_assoc",
    "Bento.C01_intersection_absorbs"
   ],
   "note": ""
  },
  {
   "property": "C02",
   "status": "proved",
   "theorems": [
    "Bento.C02_rows_eq",
    "Bento.C02_columns_eq",
    "Bento.C02_rows_partition",
    "Bento.C02_columns_partition"
   ],
   "note": ""
  },
  {
   "property": "C03",
   "status": "proved",
   "theorems": [
    "Bento.C03_inner_mem",
    "Bento.C03_inner_empty",
    "Bento.C03_inner_subset",
    "Bento.C03_indentX",
    "Bento.C03_inner_nonneg"
   ],
   "note": ""
  },
  {
   "property": "C04",
   "status": "partial",
   "theorems": [
    "Bento.C04_padding_builders_partial",
    "Bento.C04_withLeft_false",
    "Bento.C04_withLeft_actual"
   ],
   "note": "WithLeft sets Bottom in the code; negation proved (C04_withLeft_false), everything else proved."
  },
  {
   "property": "C05",
   "status": "proved",
   "theorems": [
    "Bento.C05_setStyle_patched",
    "Bento.C05_patched_assoc",
    "Bento.C05_new_unit",
    "Bento.C05_setStyle_symbol",
    "Bento.C05_setStyle_colors",
    "Bento.C05_setStyle_modifiers"
   ],
   "note": ""
  },
  {
   "property": "C06",
   "status": "proved",
   "theorems": [
    "Bento.C06_chain_consistent",
    "Bento.C06_patched_consistent",
    "Bento.C06_last_mention_wins",
    "Bento.C06_modifiers_distinct"
   ],
   "note": ""
  },
  {
   "property": "C07",
   "status": "proved",
   "theorems": [
    "Bento.C07_posOf_indexOf",
    "Bento.C07_indexOf_posOf",
    "Bento.C07_cellAt_total",
    "Bento.C07_write_independent",
    "Bento.C07_shape_invariant",
    "Bento.C07_newFilled",
    "Bento.C07_reset"
   ],
   "note": ""
  },
  {
   "property": "C08",
   "status": "proved",
   "theorems": [
    "Bento.C08_setStyle_exact",
    "Bento.C08_setStyle_symbols"
   ],
   "note": ""
  },
  {
   "property": "C09",
   "status": "partial",
   "theorems": [
    "Bento.C09_setStringN_partial",
    "Bento.C09_setStringN_narrow_partial",
    "Bento.C09_wide_at_edge_panics",
    "Bento.C09_wide_exceeds_budget",
    "Bento.C09_zero_width_not_skipped",
    "Bento.C09_zero_width_panics",
    "Bento.C09_exact_partial"
   ],
   "note": "False of the code for a wide grapheme at the edge and for zero-width graphemes; negations proved with concrete witnesses. C09_exact_partial says for every text exactly which cells change, and when it panics."
  },
  {
   "property": "C10",
   "status": "proved",
   "theorems": [
    "Bento.C10_diff_is_correct_patch",
    "Bento.C10_overlapping_wide_false"
   ],
   "note": "Proved under the frame assumption documented in buffer.go:43-44 (wide symbols followed by a blank cell); without it the claim fails (C10_overlapping_wide_false)."
  },
  {
   "property": "C11",
   "status": "proved",
   "theorems": [
    "Bento.C11_reported_once_in_order",
    "Bento.C11_self_diff_empty",
    "Bento.C11_width_three_false",
    "Bento.C11_single_width_minimal",
    "Bento.C11_reported_only_if_needed"
   ],
   "note": "Symbols wider than two columns break it (C11_width_three_false)."
  },
  {
   "property": "C12",
   "status": "proved",
   "theorems": [
    "Bento.C12_screen_shows_frame",
    "Bento.C12_resize_clear_total",
    "Bento.C12_ascii_profile_false"
   ],
   "note": "On the colourless termenv profile the claim fails (C12_ascii_profile_false)."
  },
  {
   "property": "C13",
   "status": "proved",
   "theorems": [
    "Bento.C13_frame_starts_blank",
    "Bento.C13_frame_independent_of_history"
   ],
   "note": ""
  },
  {
   "property": "C14",
   "status": "partial",
   "theorems": [
    "Bento.C14_transition_partial",
    "Bento.C14_hidden_false",
    "Bento.C14_blink_false"
   ],
   "note": "False of the code for transitions involving hidden and for dropping one of two blink modifiers (negations proved); proved for all other pairs."
  },
  {
   "property": "C15",
   "status": "proved",
   "theorems": [
    "Bento.C15_pen_and_cursor"
   ],
   "note": ""
  },
  {
   "property": "C16",
   "status": "partial",
   "theorems": [
    "Bento.C16_commands_decode_partial",
    "Bento.C16_number_round_trip",
    "Bento.C16_nil_and_no_colour_false"
   ],
   "note": "Missing from the full statement: colours that are nil (panic) or have no sequence (they reset the rendition), see C16_nil_and_no_colour_false, and text whose characters join across commands (Separable)."
  },
  {
   "property": "C17",
   "status": "partial",
   "theorems": [
    "Bento.C17_retry_opaque_partial",
    "Bento.C17_resize_retry_partial",
    "Bento.C17_dirty_after_failure_false"
   ],
   "note": "False of the code: after a failure before SwapBuffers the next widget starts from the dirty buffer (C17_dirty_after_failure_false). Partial: opaque widgets, output lost entirely; or any failure followed by Resize on a neutral pen."
  },
  {
   "property": "C18",
   "status": "partial",
   "theorems": [
    "Bento.C18_well_formed_partial",
    "Bento.C18_almost_surely_partial",
    "Bento.C18_sixteen_columns_false"
   ],
   "note": "Proved for every map order and every layout that fits the solver's uint8 symbol counter (Few: ten symbols a segment and two a wish, counted exactly): any 7 constraints, 9 outside the growing flex modes, 10 with FlexLegacy, and up to 17 depending on their kinds; fifteen Max columns are covered and sixteen are a counterexample. The loop of the solver ends with probability one (C18_almost_surely_partial, C80). Missing: longer lists, for which it is false: sixteen columns in an area without width come out with the first column outside the area (C18_sixteen_columns_false)."
  },
  {
   "property": "C19",
   "status": "partial",
   "theorems": [
    "Bento.C19_tiles_partial",
    "Bento.C19_many_segments_false",
    "Bento.C19_almost_surely_partial",
    "Bento.C19_twenty_rows_false"
   ],
   "note": "Proved for every layout that fits the symbol counter (Few, see C18), with probability one over the map orders (C80). False for longer lists: twenty rows of at most one line in ten lines overlap (C19_twenty_rows_false); beyond 257 constraints two segments always start at the same cell (C19_many_segments_false)."
  },
  {
   "property": "C20",
   "status": "partial",
   "theorems": [
    "Bento.C20_fetch_reports_values",
    "Bento.C20_required_hold_partial",
    "Bento.C20_many_variables_false"
   ],
   "note": "Proved for runs using at most 255 solver symbols; beyond 256 variables it is false (C20_many_variables_false) because the symbol counter is 8 bits."
  },
  {
   "property": "C21",
   "status": "partial",
   "theorems": [
    "Bento.C21_minimal_violation_partial"
   ],
   "note": "Proved for runs using at most 255 solver symbols and non-negative strengths; longer runs alias symbols (C22_many_variables_false)."
  },
  {
   "property": "C22",
   "status": "partial",
   "theorems": [
    "Bento.C22_variables_distinct_partial",
    "Bento.C22_symbol_budget",
    "Bento.C22_many_variables_false"
   ],
   "note": "False of the code: the counter is a uint8, so more than 256 variables always share a symbol (C22_many_variables_false); proved injective for shorter runs, with the exact number of symbols a list of constraints uses (two each, one for a required constraint that brings in a variable)."
  },
  {
   "property": "C23",
   "status": "proved",
   "theorems": [
    "Bento.C23_monotone",
    "Bento.C23_integral",
    "Bento.C23_edge_moves",
    "Bento.C23_growth",
    "Bento.C23_growth_any",
    "Bento.C23_growth_attained"
   ],
   "note": ""
  },
  {
   "property": "C24",
   "status": "proved",
   "theorems": [
    "Bento.C24_pairs_exactly",
    "Bento.C24_pairs_of_segments",
    "Bento.C24_small_panics"
   ],
   "note": "Below two segments the enumeration panics (C24_small_panics); the three callers in layout.go check for that."
  },
  {
   "property": "C25",
   "status": "partial",
   "theorems": [
    "Bento.C25_progress",
    "Bento.C25_accounts",
    "Bento.C25_idle_partial",
    "Bento.C25_full_read_false"
   ],
   "note": "False of the code for reads that fill the 256-byte buffer exactly (C25_full_read_false): text is held back until another byte arrives. Progress and accounting are proved for all inputs and chunkings; idle state proved when the last read is short."
  },
  {
   "property": "C26",
   "status": "proved",
   "theorems": [
    "Bento.C26_longest",
    "Bento.C26_sequence",
    "Bento.C26_alt",
    "Bento.C26_unique"
   ],
   "note": "Proved for all known sequences and all continuations."
  },
  {
   "property": "C27",
   "status": "partial",
   "theorems": [
    "Bento.C27_paste_partial",
    "Bento.C27_text_partial",
    "Bento.C27_chunks_partial",
    "Bento.C27_replacement_false",
    "Bento.C27_split_start_false"
   ],
   "note": "False of the code for U+FFFD (dropped) and when the start marker is split at the 256-byte limit (negations proved); verbatim delivery proved for all other texts and all chunkings that keep the start marker whole."
  },
  {
   "property": "C28",
   "status": "proved",
   "theorems": [
    "Bento.C28_sgr",
    "Bento.C28_x10"
   ],
   "note": "Proved for all events and all following bytes."
  },
  {
   "property": "C29",
   "status": "partial",
   "theorems": [
    "Bento.C29_text_partial",
    "Bento.C29_split_false",
    "Bento.C29_short_split_false"
   ],
   "note": "False of the code when a read ends inside a character (C29_split_false, C29_short_split_false); proved for all chunkings at character boundaries."
  },
  {
   "property": "C30",
   "status": "partial",
   "theorems": [
    "Bento.C30_names_partial",
    "Bento.C30_paste_partial",
    "Bento.C30_text_false",
    "Bento.C30_alt_false",
    "Bento.C30_paste_false"
   ],
   "note": "False of the code for messages with several characters and for pastes (negations proved); proved for named keys and single characters, and that a paste is never confused with one of these."
  },
  {
   "property": "C31",
   "status": "partial",
   "theorems": [
    "Bento.C31_lines_join_partial",
    "Bento.C31_lines_count_partial",
    "Bento.C31_long_line_false",
    "Bento.C31_lost_false",
    "Bento.C31_exact_partial",
    "Bento.C31_bytes"
   ],
   "note": "Proved for all texts without carriage returns, without a final newline and with lines below 64 KiB; a longer line is lost together with everything after it (C31_lost_false). C31_exact_partial says for every text what its lines become: those up to the first of 64 KiB, each without up to two carriage returns at its end."
  },
  {
   "property": "C32",
   "status": "proved",
   "theorems": [
    "Bento.C32_span_confined",
    "Bento.C32_line_confined",
    "Bento.C32_text_confined"
   ],
   "note": ""
  },
  {
   "property": "C33",
   "status": "proved",
   "theorems": [
    "Bento.C33_line_shown",
    "Bento.C33_fits",
    "Bento.C33_cut",
    "Bento.C33_text_shown"
   ],
   "note": ""
  },
  {
   "property": "C34",
   "status": "partial",
   "theorems": [
    "Bento.C34_single_line_partial",
    "Bento.C34_two_lines_false",
    "Bento.C34_run_on_partial"
   ],
   "note": "The property as stated is false: without wrapping all lines are put on one row (C34_two_lines_false). Proved instead, for every text of single-width graphemes: exactly what that row shows — all lines one after the other, less the horizontal scroll offset that left-aligned lines use up, cut at the width, at the alignment of the last line — and that every other row is left alone (C34_run_on_partial); for one line that is the property (C34_single_line_partial)."
  },
  {
   "property": "C35",
   "status": "partial",
   "theorems": [
    "Bento.C35_text_preserved",
    "Bento.C35_blanks",
    "Bento.C35_narrow_false",
    "Bento.C35_rows_fit_partial",
    "Bento.C35_long_word_false",
    "Bento.C35_wide_false",
    "Bento.C35_rows_wide_partial"
   ],
   "note": "Text preservation, order, alignment and termination are proved for all inputs and widths other than 0. The width bound is proved when no grapheme is wider than one column and no word wider than a row; it is false for a long word after the first wrap (C35_long_word_false) and for wide graphemes (C35_wide_false). With graphemes of up to k columns, whitespace of one and words that fit, rows are at most k - 1 columns too wide (C35_rows_wide_partial), and that is reached."
  },
  {
   "property": "C36",
   "status": "partial",
   "theorems": [
    "Bento.C36_confined_partial",
    "Bento.C36_outside_false",
    "Bento.C36_long_word_false",
    "Bento.C36_negative_scroll_false"
   ],
   "note": "Proved for areas inside the buffer, texts that can be laid out, and non-negative vertical scroll. False for areas reaching outside the buffer, long words, and negative scroll offsets (the three _false theorems)."
  },
  {
   "property": "C37",
   "status": "proved",
   "theorems": [
    "Bento.C37_editor",
    "Bento.C37_text"
   ],
   "note": ""
  },
  {
   "property": "C38",
   "status": "partial",
   "theorems": [
    "Bento.C38_word_partial",
    "Bento.C38_word_spec",
    "Bento.C38_residue_false",
    "Bento.C38_typing_false"
   ],
   "note": "The text after Ctrl+W is exactly what the specification says for all texts and cursors; cursor and grapheme list too if something is left before the cursor. Missing: when nothing is left an empty grapheme stays before the cursor (C38_residue_false, C38_typing_false), so the full statement is false of the code."
  },
  {
   "property": "C39",
   "status": "partial",
   "theorems": [
    "Bento.C39_window_partial",
    "Bento.C39_session_partial",
    "Bento.C39_shown_partial",
    "Bento.C39_end_false",
    "Bento.C39_paste_false",
    "Bento.C39_resize_false",
    "Bento.C39_narrow_false",
    "Bento.C39_visible_partial"
   ],
   "note": "Proved for all states whose cursor is not too far behind the part shown last (Ready), for all sessions of key by key editing at a constant width, and end to end for text of clusters that take one or more columns (C39_visible_partial; C39_shown_partial is the case of single-width text). The full statement is false: Ctrl+E, pasting, a narrower row and a row without room panic (C39_*_false)."
  },
  {
   "property": "C40",
   "status": "proved",
   "theorems": [
    "Bento.C40_window",
    "Bento.C40_selected_visible",
    "Bento.C40_stays",
    "Bento.C40_offset_false",
    "Bento.C40_padding_false"
   ],
   "note": "getItemsBounds for all lists of heights with non-negative offset, padding, height and selection (C40_window, C40_selected_visible, C40_stays). C40_offset_false: SetOffset(-1) makes the next render panic. C40_padding_false: with a negative scroll padding the selected item is not visible."
  },
  {
   "property": "C41",
   "status": "partial",
   "theorems": [
    "Bento.C41_keys",
    "Bento.C41_render",
    "Bento.C41_selected",
    "Bento.C41_session_partial",
    "Bento.C41_direction",
    "Bento.C41_last_next_false",
    "Bento.C41_between_renders_false"
   ],
   "note": "Sessions that draw the list after each command follow the specification of the commands exactly (amounts up to 2^62). Not so between renders: SelectLast then SelectNext wraps to the first item (C41_last_next_false), and moves beyond the end are not clamped (C41_between_renders_false)."
  },
  {
   "property": "C42",
   "status": "proved",
   "theorems": [
    "Bento.C42_inner_inside",
    "Bento.C42_inner_exact"
   ],
   "note": "Proved: the inner area is inside the area and is exactly the area minus the rows and columns the sides take."
  },
  {
   "property": "C43",
   "status": "partial",
   "theorems": [
    "Bento.C43_frame_only_partial",
    "Bento.C43_inner_kept_partial",
    "Bento.C43_borderless_partial",
    "Bento.C43_outside_false"
   ],
   "note": "Proved for areas inside the buffer at a non-negative x; an area reaching outside the buffer makes the title rendering panic (C43_outside_false)."
  },
  {
   "property": "C44",
   "status": "proved",
   "theorems": [
    "Bento.C44_parts_sum",
    "Bento.C44_first",
    "Bento.C44_last",
    "Bento.C44_monotone"
   ],
   "note": "For every rounding function the parts add up and the thumb has a cell; the rest assumes of int(Round(float64(a)/float64(b))) only that it is monotone in a and exact on multiples, for numbers up to 2^53."
  },
  {
   "property": "C45",
   "status": "partial",
   "theorems": [
    "Bento.C45_vertical_partial",
    "Bento.C45_right_partial",
    "Bento.C45_inside_partial",
    "Bento.C45_left_false",
    "Bento.C45_horizontal_false"
   ],
   "note": "Proved for a bar at the right (inner area and bar partition the area) and the side of both vertical bars. False for a bar at the left (the WithLeft defect makes Inner cut the bottom) and for horizontal bars (drawn on the opposite side), for every area of two rows or more."
  },
  {
   "property": "C46",
   "status": "proved",
   "theorems": [
    "Bento.C46_in_range",
    "Bento.C46_moves",
    "Bento.C46_session"
   ],
   "note": "Content lengths from 1 to 2^62."
  },
  {
   "property": "C47",
   "status": "partial",
   "theorems": [
    "Bento.C47_columns",
    "Bento.C47_cells_partial",
    "Bento.C47_unicode_partial",
    "Bento.C47_percent",
    "Bento.C47_ratio_false",
    "Bento.C47_overflow_false"
   ],
   "note": "Columns and percentages are proved for all float roundings satisfying the FloatRound laws; cells for gauges whose symbols and label take one cell per grapheme. False: WithRatio rejects nothing (C47_ratio_false), and a ratio above 1 writes outside the area or panics (C47_overflow_false)."
  },
  {
   "property": "C48",
   "status": "partial",
   "theorems": [
    "Bento.C48_one_timer",
    "Bento.C48_one_frame",
    "Bento.C48_stale_partial",
    "Bento.C48_frame_count",
    "Bento.C48_restart_false"
   ],
   "note": "One pending timer per throbber, one frame per accepted tick and stale ticks with a positive tag are proved for all event orders. False for ticks with tag 0: two starts before the first advance are both accepted (C48_restart_false)."
  },
  {
   "property": "C49",
   "status": "partial",
   "theorems": [
    "Bento.C49_clear_partial",
    "Bento.C49_fill_partial",
    "Bento.C49_outside_false"
   ],
   "note": "Proved for areas inside the buffer. False outside: both panic when the area leaves the buffer (C49_outside_false)."
  },
  {
   "property": "C50",
   "status": "partial",
   "theorems": [
    "Bento.C50_popup_partial",
    "Bento.C50_content_false",
    "Bento.C50_almost_surely",
    "Bento.C50_placed",
    "Bento.C50_padding_false"
   ],
   "note": "Proved, with the placement taken from the layout solver and four independent map orders for Inner and Render: the popup area is cleared, the block drawn on it, nothing else changed, Inner lies in it (C50_popup_partial); where the popup stands (C50_placed); the layouts end with probability one (C50_almost_surely). False: Render never draws the content (C50_content_false); the padding is applied twice (C50_padding_false)."
  },
  {
   "property": "C51",
   "status": "proved",
   "theorems": [
    "Bento.C51_sequential",
    "Bento.C51_waiting",
    "Bento.C51_result"
   ],
   "note": "The app is an explicit-step machine (Model/App): Run's goroutine, the read loop, resize goroutines, the command goroutine, one goroutine per command and per sequence, and the members of a batch in a sequence. C51_sequential: in every execution the visible actions are a prefix of what a sequential loop over the taken messages shows; C51_waiting: they are all of it whenever the loop waits; C51_result: what Run returns is the fold of Update over the messages. After a panic in Init, Update or a frame before the last Run returns no model (see C88)."
  },
  {
   "property": "C52",
   "status": "proved",
   "theorems": [
    "Bento.C52_in_order",
    "Bento.C52_given_up",
    "Bento.C52_every_sequence"
   ],
   "note": "C52_in_order: for every execution and every sequence, the recorded actions of its goroutine are those of its commands one after the other, each command finished (message taken or given up, or, for a batch, all its members finished) before the next starts. C52_every_sequence: exactly the sequences taken by the event loop get a goroutine, in order. C52_given_up: a message is only given up after the context was cancelled. A nested Sequence counts as finished when its message is taken, as in the statement: its own commands then run beside the rest of the outer one."
  },
  {
   "property": "C53",
   "status": "partial",
   "theorems": [
    "Bento.C53_batch",
    "Bento.C53_update_partial",
    "Bento.C53_life_partial",
    "Bento.C53_origin_partial",
    "Bento.C53_batch_false"
   ],
   "note": "As stated, false: C53_batch_false proves for a program whose Init returns Batch(1,2) that in no execution any command of the batch starts, although the BatchMsg is taken (example): the event loop has no case for BatchMsg (app.go:308-343). What holds: C53_batch (what Batch builds), C53_update_partial (every command Update returns is started as often as it was returned, unless it is just being handed over), C53_life_partial (a command that started delivers its message exactly once, or gave it up, panicked, or is still running), C53_origin_partial (nothing else starts); batches inside a sequence run (Whole in C52_in_order). Liveness, the command of Init included, is C128. Missing: batches outside of sequences, which do not hold."
  },
  {
   "property": "C54",
   "status": "partial",
   "theorems": [
    "Bento.C54_quit_partial",
    "Bento.C54_panic_partial",
    "Bento.C54_cancel_false",
    "Bento.C54_error_false",
    "Bento.C54_init_false",
    "Bento.C54_command_false",
    "Bento.C54_sequence_false"
   ],
   "note": "As stated, false on five exits, each with a concrete execution: cancellation, an input error, a failing set-up, a panic in a command (the terminal is restored by the goroutine of the command, but Run returns killed and with cancellation in between the event loop may draw on), a panic in a sequence (the process dies in raw mode). Proved: after a quit without an error, and after a panic in Run's own goroutine whose restoring did not fail, the terminal is restored, for all executions."
  },
  {
   "property": "C55",
   "status": "partial",
   "theorems": [
    "Bento.C55_can_return_partial",
    "Bento.C55_command_partial",
    "Bento.C55_draw_false",
    "Bento.C55_cancel_false"
   ],
   "note": "As stated, false: C55_draw_false (a failing draw blocks Run for ever: the error is sent on an unbuffered channel by the only goroutine that would receive it), C55_cancel_false (cancelling while the loop hands over a command blocks it once the command goroutine ended). Proved: C55_can_return_partial (in every other state with a done context, Run can return), C55_command_partial (before cancellation, the command goroutine is always there to take the command)."
  },
  {
   "property": "C56",
   "status": "partial",
   "theorems": [
    "Bento.C56_linear_partial",
    "Bento.C56_receiver_partial",
    "Bento.C56_siblings_false",
    "Bento.C56_room_false"
   ],
   "note": "As stated, false: C56_siblings_false (a value built up by three calls and extended twice, with Go's capacities 1, 2, 4: the first derived value shows the element of the second), C56_room_false (the same whenever there is room). Proved for a model of Go's slices with arbitrary capacities: C56_linear_partial (if no value other than a constructor's is extended twice, all values hold what they should, in every history), C56_receiver_partial (the receiver itself, and all values with no more elements, never change). Missing: values extended twice, for which it is false."
  },
  {
   "property": "C57",
   "status": "partial",
   "theorems": [
    "Bento.C57_confined_partial",
    "Bento.C57_block_partial",
    "Bento.C57_narrow_cuts",
    "Bento.C57_outside_false",
    "Bento.C57_wide_false",
    "Bento.C57_zero_width_false"
   ],
   "note": "Proved for tabs on a row of the buffer (with and without a block), for texts of clusters that have a width and are not cut in half by the right edge (all single-width texts: C57_narrow_cuts). The code panics for areas outside of the rows of the buffer and for clusters without width, and writes behind the area for a wide symbol at the edge (C57_outside_false, C57_wide_false, C57_zero_width_false)."
  },
  {
   "property": "C58",
   "status": "partial",
   "theorems": [
    "Bento.C58_almost_surely_partial",
    "Bento.C58_no_false_refusal_partial",
    "Bento.C58_refuses_contradictions_partial"
   ],
   "note": "Both directions proved for systems whose counted symbols fit the uint8 counter; for these AddConstraints returns with probability one, with an error exactly if the required constraints have no common solution (C58_almost_surely_partial). The simplex loop has no pivot rule that excludes cycling for every order. Larger systems fail (C20_many_variables_false)."
  },
  {
   "property": "C59",
   "status": "partial",
   "theorems": [
    "Bento.C59_second_fetch_false",
    "Bento.C59_first_fetch_partial"
   ],
   "note": "False from the second call on (C59_second_fetch_false): Go's clear on a slice keeps its length. The first call is exact."
  },
  {
   "property": "C60",
   "status": "partial",
   "theorems": [
    "Bento.C60_almost_surely_partial",
    "Bento.C60_lengths_exact_partial",
    "Bento.C60_many_segments_false",
    "Bento.C60_hidden_rows_false"
   ],
   "note": "Proved for every layout that fits the symbol counter (Few, see C18), for every map order unless the simplex loop runs for ever, which has probability zero (C60_almost_surely_partial). False for longer lists: with 31 rows of length 0 and a fill, a hidden row gets the whole screen (C60_hidden_rows_false); false for any list beyond 257 (C60_many_segments_false). C90 covers spacing and the other kinds of constraints."
  },
  {
   "property": "C61",
   "status": "partial",
   "theorems": [
    "Bento.C61_almost_surely_partial",
    "Bento.C61_fill_shares_partial"
   ],
   "note": "Proved for every layout that fits the symbol counter (Few, see C18), for every map order unless the simplex loop runs for ever, which has probability zero (C61_almost_surely_partial). C90 covers spacing, the other kinds of constraints, the other flex modes and any weights."
  },
  {
   "property": "C62",
   "status": "partial",
   "theorems": [
    "Bento.C62_focus_partial",
    "Bento.C62_shared_read_false"
   ],
   "note": "False of the code for every report followed by further bytes in the same read (C62_shared_read_false, for all continuations)."
  },
  {
   "property": "C63",
   "status": "partial",
   "theorems": [
    "Bento.C63_introducer_partial",
    "Bento.C63_swallowed_false"
   ],
   "note": "False of the code: mouseSGRRegex is not anchored (C63_swallowed_false)."
  },
  {
   "property": "C64",
   "status": "partial",
   "theorems": [
    "Bento.C64_first_lines_partial",
    "Bento.C64_third_line_false"
   ],
   "note": "Proved for the first two input lines of every text; false from the third line on (C64_third_line_false)."
  },
  {
   "property": "C65",
   "status": "partial",
   "theorems": [
    "Bento.C65_line_background_partial",
    "Bento.C65_line_style_false"
   ],
   "note": "Proved for left-aligned and overlong lines; false for centered and right-aligned lines that fit (C65_line_style_false): the style goes to the first columns of the row."
  },
  {
   "property": "C66",
   "status": "partial",
   "theorems": [
    "Bento.C66_overlong_line_fills_partial",
    "Bento.C66_tab_false"
   ],
   "note": "Proved for single-width text; false when the part cut off contains a zero-width cluster such as a tab (C66_tab_false)."
  },
  {
   "property": "C67",
   "status": "proved",
   "theorems": [
    "Bento.C67_border_cells",
    "Bento.C67_beside_titles"
   ],
   "note": "Proved for all border combinations and symbols, with and without titles."
  },
  {
   "property": "C68",
   "status": "proved",
   "theorems": [
    "Bento.C68_title_shown"
   ],
   "note": "Titles of clusters of one or more columns without control characters."
  },
  {
   "property": "C69",
   "status": "partial",
   "theorems": [
    "Bento.C69_fitting_lines_partial",
    "Bento.C69_whitespace_line_false"
   ],
   "note": "Proved for lines of single-width graphemes that are empty or hold a non-blank; false for lines of whitespace only, which take two rows (C69_whitespace_line_false)."
  },
  {
   "property": "C70",
   "status": "proved",
   "theorems": [
    "Bento.C70_rows_shown",
    "Bento.C70_laid_out"
   ],
   "note": "C70_rows_shown for every paragraph whose rows can be painted, C70_laid_out says which those are. Wide graphemes and long words in wrapped text can give rows that are too wide (C35_*_false)."
  },
  {
   "property": "C71",
   "status": "proved",
   "theorems": [
    "Bento.C71_line_styles"
   ],
   "note": ""
  },
  {
   "property": "C72",
   "status": "partial",
   "theorems": [
    "Bento.C72_list_partial",
    "Bento.C72_outside_false"
   ],
   "note": "Area inside the buffer, text of clusters of one or more columns, single-width highlight symbol, non-negative block padding. C72_outside_false: an area that is partly outside the buffer panics."
  },
  {
   "property": "C73",
   "status": "partial",
   "theorems": [
    "Bento.C73_bar_partial",
    "Bento.C73_horizontal_false"
   ],
   "note": "Proved for bars whose symbols, arrow heads included, take one cell. False for the default horizontal bar: its empty arrow heads still take a cell of the strip."
  },
  {
   "property": "C74",
   "status": "proved",
   "theorems": [
    "Bento.C74_cycle",
    "Bento.C74_confined",
    "Bento.C74_almost_surely"
   ],
   "note": "The layouts end with probability one over the map orders (C74_almost_surely); a run that is still going is the other outcome of C74_confined. Paddings are non-negative."
  },
  {
   "property": "C75",
   "status": "partial",
   "theorems": [
    "Bento.C75_no_leak_partial",
    "Bento.C75_error_false"
   ],
   "note": "Proved for a return without an error and after a panic of Run itself; false after an input error (C75_error_false): the context stays alive, the command goroutine stays, and messages block their senders."
  },
  {
   "property": "C76",
   "status": "proved",
   "theorems": [
    "Bento.C76_update",
    "Bento.C76_draw"
   ],
   "note": "C76_update: the field on Go slices with arrays refines the value model used for C37-C39, for every key, including panics, and stays well-formed. C76_draw: drawing leaves every slice as it was. slices.Insert is modelled by its documented result, in place when there is room."
  },
  {
   "property": "C77",
   "status": "partial",
   "theorems": [
    "Bento.C77_strip_partial",
    "Bento.C77_symbols_partial",
    "Bento.C77_select_outside"
   ],
   "note": "Same restrictions as C57."
  },
  {
   "property": "C78",
   "status": "partial",
   "theorems": [
    "Bento.C78_print_partial",
    "Bento.C78_wide_false"
   ],
   "note": "Clusters without width and wide clusters across the cut are excluded (C78_wide_false)."
  },
  {
   "property": "C79",
   "status": "partial",
   "theorems": [
    "Bento.C79_newBuffer_partial",
    "Bento.C79_zero_width_false"
   ],
   "note": "Clusters without width are excluded: the code panics on them (C79_zero_width_false). The remaining width that setLine never makes smaller is harmless, because SetStringN stops at the edge of the buffer."
  },
  {
   "property": "C80",
   "status": "proved",
   "theorems": [
    "Bento.C80_fixed_order",
    "Bento.C80_never_trapped",
    "Bento.C80_almost_surely",
    "Bento.C80_split_never_trapped",
    "Bento.C80_split_almost_surely"
   ],
   "note": "Proved by Bland's rule: a long enough stretch of picks that follow one fixed order ends the loop, and by the second Borel-Cantelli lemma such a stretch occurs almost surely. That the runtime's random map iteration is a stream of independent picks is an assumption of the theorem, stated in it. An order for which the loop never ends is exhibited by C81_returns_false."
  },
  {
   "property": "C81",
   "status": "partial",
   "theorems": [
    "Bento.C81_almost_surely_partial",
    "Bento.C81_different_kinds_partial",
    "Bento.C81_definite_partial",
    "Bento.C81_growing_partial",
    "Bento.C81_yielding_partial",
    "Bento.C81_same_result_false",
    "Bento.C81_same_result_without_gaps_false",
    "Bento.C81_returns_false",
    "Bento.C81_equally_good_partial",
    "Bento.C81_one_fill_partial"
   ],
   "note": "False as stated: C81_same_result_false and C81_same_result_without_gaps_false give layouts of 3 and 4 Min/Max columns that two map orders split differently, C81_returns_false a layout and a map order for which the simplex method cycles for ever. Proved for all orders: the results are equally good (least weighted violation), and they are equal for the layouts of C82 (definite sizes outside FlexLegacy), C90 (some segment grows), C91 (one segment gives way) and C95 if no kind of constraint occurs twice (C81_different_kinds_partial), and for lengths and one fill. Returning has probability one (C81_almost_surely_partial)."
  },
  {
   "property": "C82",
   "status": "partial",
   "theorems": [
    "Bento.C82_almost_surely_partial",
    "Bento.C82_definite_sizes_partial",
    "Bento.C82_single_between_false"
   ],
   "note": "Proved for the five modes other than FlexLegacy, for layouts that fit the symbol counter (Few, see C18); overlaps up to the size of the shortest segment are included; running for ever is the other outcome and has probability zero (C82_almost_surely_partial). A single segment in FlexSpaceBetween is stretched over the whole area (C82_single_between_false). FlexLegacy and growing segments are in C90 and C91. Missing: layouts beyond the symbol counter."
  },
  {
   "property": "C83",
   "status": "partial",
   "theorems": [
    "Bento.C83_outer_space_false",
    "Bento.C83_two_buttons_false",
    "Bento.C83_inner_gaps_partial"
   ],
   "note": "The claim fails: configureFlexConstraints puts no constraint on the outer spacers in this mode, so for two or more segments of definite size that fit, no space is ever left around (C83_outer_space_false, for all such layouts and orders). What holds is that the inner gaps are equal (C83_inner_gaps_partial)."
  },
  {
   "property": "C84",
   "status": "partial",
   "theorems": [
    "Bento.C84_corner_partial"
   ],
   "note": "Proved for every history of additions that leaves at most 256 symbols (see C22), for every map order; the solver of this repository has no removals or edits. Missing: the systems for which the eight-bit symbols wrap around."
  },
  {
   "property": "C85",
   "status": "partial",
   "theorems": [
    "Bento.C85_almost_surely_partial",
    "Bento.C85_cheapest_row_partial",
    "Bento.C85_fractions_false"
   ],
   "note": "Proved for FlexLegacy layouts that fit the symbol counter (Few, see C18), each constraint a fill (at most one), a minimum, or a definite size that comes out whole, for every spacing, padding, area and map order; not finishing is the other outcome (C80: probability zero). The edges of the segments are corners of a system of differences (C84), so cutting them down to whole cells keeps every constraint that is met with equality. With fractional sizes rounding does cost something (C85_fractions_false). Missing: several fills, other flex modes, layouts beyond the symbol counter."
  },
  {
   "property": "C86",
   "status": "proved",
   "theorems": [
    "Bento.C86_single_segment",
    "Bento.C86_same_result",
    "Bento.C86_almost_surely",
    "Bento.C86_exact_length"
   ],
   "note": "For every map order the result of a split that ends is as stated (C86_single_segment, C86_exact_length, C86_same_result), and the split ends with probability one (C86_almost_surely)."
  },
  {
   "property": "C87",
   "status": "partial",
   "theorems": [
    "Bento.C87_steady_partial",
    "Bento.C87_ellipsis_false"
   ],
   "note": "Proved for sets whose frames have one size (C87_steady_partial), which all built-in sets but the ellipsis have; the ellipsis jumps (C87_ellipsis_false). The mode FlexSpaceAround is excluded."
  },
  {
   "property": "C88",
   "status": "partial",
   "theorems": [
    "Bento.C88_quit",
    "Bento.C88_calm_partial",
    "Bento.C88_panic_false",
    "Bento.C88_last_draw_false"
   ],
   "note": "Missing: panics. C88_quit needs no assumption for a non-nil model; C88_calm_partial shows that without panics Run returns no error only after quitting. False: after a panic in Update Run returns nil, nil (C88_panic_false); after a panic in the last frame it returns the model and no error (C88_last_draw_false)."
  },
  {
   "property": "C89",
   "status": "proved",
   "theorems": [
    "Bento.C89_last_colour_wins",
    "Bento.C89_helpers",
    "Bento.C89_hex_round_trip",
    "Bento.C89_rgb"
   ],
   "note": "What termenv does is a hypothesis: the profile keeps the sixteen colours (C89_helpers) or RGB colours, and colorful.Hex reads #rrggbb as the three bytes (C89_rgb)."
  },
  {
   "property": "C90",
   "status": "proved",
   "theorems": [
    "Bento.C90_growing",
    "Bento.C90_almost_surely"
   ],
   "note": "For layouts within the symbol counter (Few, see C22). C90_growing holds for every map order, with the simplex loop running for ever as the other outcome; C90_almost_surely removes it. The same rectangles for every order: C81_growing_partial."
  },
  {
   "property": "C91",
   "status": "proved",
   "theorems": [
    "Bento.C91_yielding",
    "Bento.C91_almost_surely"
   ],
   "note": "For layouts within the symbol counter (Few, see C22). C91_yielding holds for every map order, with the simplex loop running for ever as the other outcome; C91_almost_surely removes it. The same rectangles for every order: C81_yielding_partial. Rows in which two segments share the first place are decided by the map order (C81_same_result_false)."
  },
  {
   "property": "C92",
   "status": "proved",
   "theorems": [
    "Bento.C92_titles_in_order"
   ],
   "note": "Titles of clusters of one or more columns without control characters."
  },
  {
   "property": "C93",
   "status": "proved",
   "theorems": [
    "Bento.C93_sensible",
    "Bento.C93_names"
   ],
   "note": ""
  },
  {
   "property": "C94",
   "status": "proved",
   "theorems": [
    "Bento.C94_own_variables",
    "Bento.C94_split_undisturbed",
    "Bento.C94_numbering",
    "Bento.C94_same_variables"
   ],
   "note": "C94_own_variables and C94_split_undisturbed hold for every schedule of the two atomic operations of NewVariable by any number of goroutines, as long as the uint64 counter does not wrap; C94_same_variables shows two goroutines that are given the same variables."
  },
  {
   "property": "C95",
   "status": "proved",
   "theorems": [
    "Bento.C95_fair",
    "Bento.C95_almost_surely",
    "Bento.C95_fair_cells"
   ],
   "note": "For layouts within the symbol counter (Few, see C22). C95_fair holds for every map order, with the simplex loop running for ever as the other outcome; C95_almost_surely removes it. C95_fair_cells is the case without rounding. Segments of the same kind may share the loss in any way, which the map order decides (C81_same_result_false)."
  },
  {
   "property": "C96",
   "status": "proved",
   "theorems": [
    "Bento.C96_float64_exact",
    "Bento.C96_any_rounding",
    "Bento.C96_float64_tiles",
    "Bento.C96_percentage_false"
   ],
   "note": "Model/Float rounds every addition, multiplication and division of the solver and the layout with the rounding of IEEE 754 binary64 (or any rounding that keeps integers of 53 bits: C96_any_rounding) and has the code's threshold 1e-8. Left out: overflow, NaN, and the fusion of a product and a sum into one rounding (which changes nothing where all values are integers). Percentages are outside the property: C96_percentage_false gives a layout where rounding moves an edge by a cell, so that Len(35) is drawn 36 cells wide although there is room."
  },
  {
   "property": "C97",
   "status": "partial",
   "theorems": [
    "Bento.C97_text",
    "Bento.C97_block",
    "Bento.C97_paragraph",
    "Bento.C97_list",
    "Bento.C97_input",
    "Bento.C97_popup",
    "Bento.C97_throbber",
    "Bento.C97_output",
    "Bento.C97_printed_partial",
    "Bento.C97_tabs_false",
    "Bento.C97_gauge_false"
   ],
   "note": "Proved for spans, lines, texts, block titles, paragraphs, list items, input fields, popups and throbbers (C97_text ... C97_throbber), and for the output of Draw in any session whose widgets draw harmless symbols (C97_output). False: everything that goes through SetStringN is sent as it is: tab titles (C97_tabs_false: a title clears the screen) and gauge labels (C97_gauge_false); C97_printed_partial needs that text to be harmless. Also unfiltered: the highlight symbol of a list, border symbols, the symbol of Fill and of a scrollbar, which the program chooses. Strings in the model are valid UTF-8; a raw byte 0x9b in an invalid string is outside of the model."
  },
  {
   "property": "C98",
   "status": "partial",
   "theorems": [
    "Bento.C98_span_exact",
    "Bento.C98_decomposition",
    "Bento.C98_spells_partial",
    "Bento.C98_wide_false"
   ],
   "note": "C98_span_exact says exactly what the cells hold, for clusters of any width; C98_decomposition shows that it applies to every text; C98_spells_partial: text of widths 0 and 1 that fits is spelt by the row. False behind a wide symbol: the mark goes to the hidden cell and is never sent (C98_wide_false). Paragraphs drop clusters without width and SetStringN gives them a cell of their own (see C09)."
  },
  {
   "property": "C99",
   "status": "proved",
   "theorems": [
    "Bento.C99_row",
    "Bento.C99_shown",
    "Bento.C99_almost_surely"
   ],
   "note": "C99_row gives the row for any text; C99_shown what is on the screen, for visible text (clusters of one or more columns) and a state that the operations of C39 keep (Ready); C99_almost_surely the termination of the solver. FlexSpaceAround leaves the place open (C86)."
  },
  {
   "property": "C100",
   "status": "proved",
   "theorems": [
    "Bento.C100_line",
    "Bento.C100_fits",
    "Bento.C100_overlong",
    "Bento.C100_styles",
    "Bento.C100_text",
    "Bento.C100_cells"
   ],
   "note": "C100_line and C100_text give every cell of the row or area; C100_fits and C100_overlong say what that means for lines that fit or do not; C100_styles gives the style of the cell a symbol stands in. Text with clusters without width is C98."
  },
  {
   "property": "C101",
   "status": "proved",
   "theorems": [
    "Bento.C101_widgets",
    "Bento.C101_alone",
    "Bento.C101_order",
    "Bento.C101_segments"
   ],
   "note": "Keeping to its area is a hypothesis on each drawing (Within); it is proved for blocks and fills, see C09, C43 and C49 for the widgets that do not always keep to it. A popup or throbber that waits for the solver forever is not told from one that panics (Result.value)."
  },
  {
   "property": "C102",
   "status": "proved",
   "theorems": [
    "Bento.C102_frame",
    "Bento.C102_screen",
    "Bento.C102_text"
   ],
   "note": "Symbols of one column only: with wide symbols, overlapping drawings can leave a wide symbol next to another one (see C10). Drawing that panics draws nothing (see C09, C40, C50 and others for when); the hypothesis Drawing lists every widget with what it is made of (MadeOf). Termenv must pass the default colour through (C12_ascii_profile_false)."
  },
  {
   "property": "C103",
   "status": "proved",
   "theorems": [
    "Bento.C103_mixed"
   ],
   "note": "Proved for any list of reads; the messages are compared after runs of characters have been taken apart into single characters (Msg.pieces)."
  },
  {
   "property": "C104",
   "status": "proved",
   "theorems": [
    "Bento.C104_typed",
    "Bento.C104_screen"
   ],
   "note": "C104_typed: bytes to state. C104_screen: state to screen. Composes C103, C37, C99, C33 and C102. The cells of the frame around the content are covered by C43 and C102."
  },
  {
   "property": "C105",
   "status": "proved",
   "theorems": [
    "Bento.C105_waiting",
    "Bento.C105_shell",
    "Bento.C105_succeeds",
    "Bento.C105_panic_false",
    "Bento.C105_waiting_reached"
   ],
   "note": "Operations of the terminal are single steps; whatever a failing one leaves behind is arbitrary. C105_panic_false: with a panicking command the goroutine of the command leaves the alternate screen while Run may still draw, so a frame lands on the screen of the shell."
  },
  {
   "property": "C106",
   "status": "proved",
   "theorems": [
    "Bento.C106_selection",
    "Bento.C106_screen",
    "Bento.C106_letters_false",
    "Bento.C106_word_false"
   ],
   "note": "Two or more letters that arrive in one read come as one message whose name the list does not know, so quick presses of j and k are lost (C106_letters_false); the letters of the word up in one read are taken for the arrow key (C106_word_false). The statement therefore supposes that no two characters come together in a read."
  },
  {
   "property": "C107",
   "status": "proved",
   "theorems": [
    "Bento.C107_frame",
    "Bento.C107_screen",
    "Bento.C107_text"
   ],
   "note": ""
  },
  {
   "property": "C108",
   "status": "proved",
   "theorems": [
    "Bento.C108_layout",
    "Bento.C108_line",
    "Bento.C108_text",
    "Bento.C108_title",
    "Bento.C108_block",
    "Bento.C108_block_sides",
    "Bento.C108_list",
    "Bento.C108_input",
    "Bento.C108_paragraph",
    "Bento.C108_popup",
    "Bento.C108_tabs",
    "Bento.C108_gauge",
    "Bento.C108_defaults"
   ],
   "note": "Every chain of the calls listed in Model/Builders.lean; WithLinesStr, Span.WithStylePatch and the remaining BorderSet builders are not among them."
  },
  {
   "property": "C109",
   "status": "partial",
   "theorems": [
    "Bento.C109_again_partial",
    "Bento.C109_twice_false",
    "Bento.C109_blank_false"
   ],
   "note": "Missing: that the picture is the same already at the second drawing when items differ in height, which is false (C109_twice_false, C109_blank_false). The state never changes, and from the second drawing on the picture stays."
  },
  {
   "property": "C110",
   "status": "partial",
   "theorems": [
    "Bento.C110_text",
    "Bento.C110_list",
    "Bento.C110_paragraph_partial",
    "Bento.C110_ignored_false",
    "Bento.C110_centred_false"
   ],
   "note": "Texts and list items in full. For paragraphs the paragraph's own alignment is covered; the alignment of the text inside is ignored by the code (C110_ignored_false, C110_centred_false)."
  },
  {
   "property": "C111",
   "status": "proved",
   "theorems": [
    "Bento.C111_block",
    "Bento.C111_list"
   ],
   "note": ""
  },
  {
   "property": "C112",
   "status": "proved",
   "theorems": [
    "Bento.C112_panels",
    "Bento.C112_quits",
    "Bento.C112_bytes",
    "Bento.C112_frame",
    "Bento.C112_cover",
    "Bento.C112_screen"
   ],
   "note": "Proved from messages to cells of the screen. The size of the screen is below 2^63, as every Go int is."
  },
  {
   "property": "C113",
   "status": "proved",
   "theorems": [
    "Bento.C113_keys",
    "Bento.C113_escape",
    "Bento.C113_controls",
    "Bento.C113_table",
    "Bento.C113_delete_false",
    "Bento.C113_rxvt_false"
   ],
   "note": "The sequences compared are the 133 of Spec/Keys; xterm's shift+delete is delivered as alt+insert (C113_delete_false), rxvt's ctrl+arrows as alt+O and a letter (C113_rxvt_false): they are outside of the list."
  },
  {
   "property": "C114",
   "status": "proved",
   "theorems": [
    "Bento.C114_report",
    "Bento.C114_motion"
   ],
   "note": ""
  },
  {
   "property": "C115",
   "status": "proved",
   "theorems": [
    "Bento.C115_whole",
    "Bento.C115_form"
   ],
   "note": ""
  },
  {
   "property": "C116",
   "status": "partial",
   "theorems": [
    "Bento.C116_words_partial",
    "Bento.C116_trimmed",
    "Bento.C116_leading_false"
   ],
   "note": "C116_trimmed: with trimming, in full. Without trimming the first word of an indented line needs room behind the indentation; otherwise it is false (C116_leading_false)."
  },
  {
   "property": "C117",
   "status": "proved",
   "theorems": [
    "Bento.C117_rows_filled",
    "Bento.C117_next"
   ],
   "note": ""
  },
  {
   "property": "C118",
   "status": "proved",
   "theorems": [
    "Bento.C118_cells",
    "Bento.C118_cursor",
    "Bento.C118_screen"
   ],
   "note": ""
  },
  {
   "property": "C119",
   "status": "proved",
   "theorems": [
    "Bento.C119_typed",
    "Bento.C119_quits",
    "Bento.C119_no_panic",
    "Bento.C119_frame",
    "Bento.C119_screen"
   ],
   "note": ""
  },
  {
   "property": "C120",
   "status": "proved",
   "theorems": [
    "Bento.C120_one_tick",
    "Bento.C120_goes_on",
    "Bento.C120_example"
   ],
   "note": ""
  },
  {
   "property": "C121",
   "status": "proved",
   "theorems": [
    "Bento.C121_frame",
    "Bento.C121_cover",
    "Bento.C121_any_size",
    "Bento.C121_screen"
   ],
   "note": "Assumptions in the hypotheses: the layout solver comes to an end (Splits/Throbs say: some map order for which it does), durations are written in one short line of visible characters, the program symbols are single columns. Partial with respect to nothing else; sizes below 15x11: no panic and showable cells only (C121_any_size)."
  },
  {
   "property": "C122",
   "status": "proved",
   "theorems": [
    "Bento.C122_text",
    "Bento.C122_list"
   ],
   "note": ""
  },
  {
   "property": "C123",
   "status": "proved",
   "theorems": [
    "Bento.C123_nearest",
    "Bento.C123_window",
    "Bento.C123_drawn"
   ],
   "note": ""
  },
  {
   "property": "C124",
   "status": "proved",
   "theorems": [
    "Bento.C124_state",
    "Bento.C124_frame",
    "Bento.C124_quits",
    "Bento.C124_screen"
   ],
   "note": ""
  },
  {
   "property": "C125",
   "status": "proved",
   "theorems": [
    "Bento.C125_rows",
    "Bento.C125_cells",
    "Bento.C125_page",
    "Bento.C125_screen"
   ],
   "note": ""
  },
  {
   "property": "C126",
   "status": "proved",
   "theorems": [
    "Bento.C126_gaps_first",
    "Bento.C126_gaps_exact",
    "Bento.C126_rest",
    "Bento.C126_even_gaps",
    "Bento.C126_apart",
    "Bento.C126_almost_surely",
    "Bento.C126_nested",
    "Bento.C126_draw"
   ],
   "note": ""
  },
  {
   "property": "C127",
   "status": "proved",
   "theorems": [
    "Bento.C127_block",
    "Bento.C127_page",
    "Bento.C127_content",
    "Bento.C127_screen"
   ],
   "note": ""
  },
  {
   "property": "C128",
   "status": "proved",
   "theorems": [
    "Bento.C128_started",
    "Bento.C128_update",
    "Bento.C128_init",
    "Bento.C128_sequence",
    "Bento.C128_input",
    "Bento.C128_size"
   ],
   "note": "C128_started (a command that started outside of a sequence: its message arrives), C128_update and C128_init (commands of Update and of Init start afresh and their messages arrive), C128_sequence (Past of C52: every command of the sequence ran wholly, batches included; nothing was dropped), C128_input and C128_size. The hypotheses Fair and KeepsRunning are those of the quantifier; they are met by the example chainLive. That calls of commands end is part of fairness (a call is one step of its goroutine)."
  },
  {
   "property": "C129",
   "status": "partial",
   "theorems": [
    "Bento.C129_cursor_partial",
    "Bento.C129_plain_partial",
    "Bento.C129_control_partial",
    "Bento.C129_text_partial",
    "Bento.C129_silent",
    "Bento.C129_brackets_false",
    "Bento.C129_nothing_false",
    "Bento.C129_at_sign_false",
    "Bento.C129_page_false"
   ],
   "note": "Partly false: C129_brackets_false (ctrl+[ is called ctrl+], ctrl+] arrives as text), C129_nothing_false (F1, insert, and the ctrl and alt keys alone arrive as the text NUL), C129_at_sign_false (an at sign typed with AltGr is not text), C129_page_false (ctrl+pgup is called pgup). What holds: C129_cursor_partial (arrows, home, end with all modifiers), C129_plain_partial (enter, backspace, esc, pgup, pgdown, delete, tab: names without ctrl), C129_control_partial (ctrl+a to ctrl+z, ctrl+\\ and ctrl+_), C129_text_partial (characters without ctrl, and the space bar), C129_silent. The numbers of the console and coninput's Contains are assumptions (DESIGN.md)."
  },
  {
   "property": "C130",
   "status": "proved",
   "theorems": [
    "Bento.C130_gestures",
    "Bento.C130_between"
   ],
   "note": "C130_gestures by induction over gestures; C130_between: records of other kinds in between make no difference. Assumption in the quantifier: the button state of a record names the five buttons only (an example shows what a wheel's distance in it would do)."
  },
  {
   "property": "C131",
   "status": "partial",
   "theorems": [
    "Bento.C131_restored_partial",
    "Bento.C131_last",
    "Bento.C131_no_terminal",
    "Bento.C131_twice_false"
   ],
   "note": "As stated, false: C131_twice_false (enabling raw mode twice loses the settings; disabling it then leaves the terminal in raw mode). C131_restored_partial covers all sequences in which raw mode is not enabled while it is on, with any failures; C131_last: disabling brings back the settings from before the last successful enabling; C131_no_terminal."
  },
  {
   "property": "C132",
   "status": "proved",
   "theorems": [
    "Bento.C132_sizes",
    "Bento.C132_last"
   ],
   "note": "C132_sizes for every state of the reader; C132_last from the beginning."
  },
  {
   "property": "C133",
   "status": "proved",
   "theorems": [
    "Bento.C133_every_frame",
    "Bento.C133_next",
    "Bento.C133_example"
   ],
   "note": "Liveness on top of C120 (one tick on its way) and C128 (fair executions). A timer is a call that ends at some time. The example is an infinite execution of examples/throbber, shown to be fair."
  },
  {
   "property": "C134",
   "status": "partial",
   "theorems": [
    "Bento.C134_settles",
    "Bento.C134_last_size_partial",
    "Bento.C134_unchanged",
    "Bento.C134_overtaken_false",
    "Bento.C134_unregistered_false"
   ],
   "note": "As stated, false while the app starts: C134_overtaken_false (the initial size, asked for by a goroutine of its own, is told after the newer one) and C134_unregistered_false (a change between that query and signal.Notify is never heard of); both leave the wrong size until the next change. C134_last_size_partial: for every change after the app has registered and the initial size was taken, in full. C134_settles (at most seven steps, from every state) and C134_unchanged need no such condition."
  },
  {
   "property": "C135",
   "status": "proved",
   "theorems": [
    "Bento.C135_cancelled",
    "Bento.C135_reported",
    "Bento.C135_spent",
    "Bento.C135_again"
   ],
   "note": "Returning nil, nil after a panic of Init, Update or the drawing of a frame is not excluded by C135_cancelled (see C88); C135_reported assumes no such panic."
  },
  {
   "property": "C136",
   "status": "proved",
   "theorems": [
    "Bento.C136_seen",
    "Bento.C136_at_last"
   ],
   "note": ""
  },
  {
   "property": "C137",
   "status": "proved",
   "theorems": [
    "Bento.C137_assign",
    "Bento.C137_length",
    "Bento.C137_split",
    "Bento.C137_unwrap"
   ],
   "note": ""
  },
  {
   "property": "C138",
   "status": "proved",
   "theorems": [
    "Bento.C138_fills",
    "Bento.C138_keeps"
   ],
   "note": ""
  },
  {
   "property": "C139",
   "status": "proved",
   "theorems": [
    "Bento.C139_order",
    "Bento.C139_taken"
   ],
   "note": ""
  }
 ]
}
