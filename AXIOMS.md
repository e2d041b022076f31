# Axioms per theorem (output of `#print axioms`, written by tools/axioms.py)

* `C01_interning`: propext, Classical.choice, Quot.sound
* `C01_out_of_range_history`: propext
* `C01_aka_not_interned`: propext, Quot.sound
* `C02_eq_equivalence`: propext
* `C02_lt_total`: propext, Quot.sound
* `C02_lt_meaning`: propext
* `C02_hash`: propext
* `C02_red_five`: propext, Quot.sound
* `C03_sub_category`: propext, Classical.choice, Quot.sound
* `C03_mixed_category`: propext, Classical.choice, Quot.sound
* `C03_mixed_needs_agreement`: propext, Quot.sound
* `C03_tenhou_category`: none
* `C03_open_category`: propext, Classical.choice, Quot.sound
* `C03_open_block`: propext, Quot.sound
* `C04_from_tenhou`: propext, Quot.sound
* `C04_blocks`: propext, Quot.sound
* `C04_range_inverse`: propext, Classical.choice, Quot.sound
* `C04_rejects_large`: propext, Classical.choice, Quot.sound
* `C04_negative_numbers`: propext, Classical.choice, Quot.sound
* `C04_red_range_wrong`: propext
* `C05_operands_kept`: propext, Quot.sound
* `C05_operations`: propext, Quot.sound
* `C05_construct`: propext, Quot.sound
* `C05_contains`: propext, Quot.sound
* `C05_contains_hand`: propext, Quot.sound
* `C05_exclude`: propext, Quot.sound
* `C05_len_tiles`: propext, Classical.choice, Quot.sound
* `C05_resort`: propext, Quot.sound
* `C06_parse`: propext, Classical.choice, Quot.sound
* `C06_parse_group`: propext, Classical.choice, Quot.sound
* `C06_parse_junk`: propext, Classical.choice, Quot.sound
* `C06_roundtrip`: propext, Classical.choice, Quot.sound
* `C06_roundtrip_eq`: propext, Classical.choice, Quot.sound
* `C06_all_tiles`: propext, Classical.choice, Quot.sound
* `C07_distinct`: propext, Quot.sound
* `C07_distinct_summary`: propext, Quot.sound
* `C08_normal_match`: propext, Classical.choice, Quot.sound
* `C09_sound`: propext, Classical.choice, Quot.sound
* `C10_exactly_once`: propext, Classical.choice, Quot.sound
* `C11_unique_pairs_match`: propext, Classical.choice, Quot.sound
* `C12_hand_kept`: propext, Classical.choice, Quot.sound
* `C12_monotone`: propext, Classical.choice, Quot.sound
* `C12_kinds_only`: propext, Classical.choice, Quot.sound
* `C13_brute_least`: propext, Classical.choice, Quot.sound
* `C14_pattern_match_least`: propext, Classical.choice, Quot.sound
* `C15_heuristic_least`: propext, Classical.choice, Quot.sound
* `C16_algorithms_agree`: propext, Classical.choice, Quot.sound
* `C17_heuristic_useful`: propext, Classical.choice, Quot.sound
* `C17_heuristic_returns`: propext, Classical.choice, Quot.sound
* `C17_pattern_match_useful`: propext, Classical.choice, Quot.sound
* `C17_pattern_match_returns`: propext, Classical.choice, Quot.sound
* `C17_brute_useful`: propext, Classical.choice, Quot.sound
* `C17_brute_both`: propext, Classical.choice, Quot.sound
* `C17_brute_returns`: propext, Classical.choice, Quot.sound
* `C18_batch`: propext, Classical.choice, Quot.sound
* `C18_batch_reanalyse`: propext, Classical.choice, Quot.sound
* `C18_batch_returns`: propext, Classical.choice, Quot.sound
* `C19_normal_never_fails`: propext, Classical.choice, Quot.sound
* `C19_seven_pairs_never_fails`: propext, Classical.choice, Quot.sound
* `C20_pattern_match_one_tile`: propext, Classical.choice, Quot.sound
* `C20_heuristic_one_tile`: propext, Classical.choice, Quot.sound
* `C20_brute_one_tile`: propext, Classical.choice, Quot.sound
* `C21_winning_hand`: propext, Classical.choice, Quot.sound
* `C21_pattern_match_never_minus_one`: propext, Classical.choice, Quot.sound
* `C22_hand_keeps_counts`: propext, Classical.choice, Quot.sound
* `C22_step_depends_on_kinds`: propext, Classical.choice, Quot.sound
* `C22_useful_depends_on_kinds`: propext, Classical.choice, Quot.sound
* `C23_lifting_the_limit`: propext, Classical.choice, Quot.sound
* `C23_unlimited_step`: propext, Classical.choice, Quot.sound
* `C23_unlimited_useful`: propext, Classical.choice, Quot.sound
* `C23_unlimited_pattern_useful`: propext, Classical.choice, Quot.sound
* `C23_brute_ignores_flag`: propext, Classical.choice, Quot.sound
* `C24_sample_without_replacement`: propext, Classical.choice, Quot.sound
* `C24_pick`: propext, Classical.choice, Quot.sound
* `C24_overdrawn`: propext, Classical.choice, Quot.sound
* `C24_choice_interval`: propext, Classical.choice, Quot.sound
* `C25_unpack_repack`: propext, Classical.choice, Quot.sound
* `C25_field`: propext, Classical.choice, Quot.sound
* `C25_rejects`: propext, Quot.sound
* `C25_descriptions`: propext, Classical.choice, Quot.sound
* `C26_chi`: propext, Classical.choice, Quot.sound
* `C26_chi_all_codes`: propext, Classical.choice, Quot.sound
* `C27_pon`: propext, Classical.choice, Quot.sound
* `C27_added_kan`: propext, Classical.choice, Quot.sound
* `C27_concealed_kan`: propext, Classical.choice, Quot.sound
* `C27_open_kan`: propext, Classical.choice, Quot.sound
* `C27_kita`: propext, Classical.choice, Quot.sound
* `C27_all_codes`: propext, Classical.choice, Quot.sound
* `C28_shape`: propext, Classical.choice, Quot.sound
* `C28_kita_unchecked`: propext, Classical.choice, Quot.sound
* `C28_opened`: propext, Classical.choice, Quot.sound
* `C28_opened_added`: none
* `C29_eq`: propext, Classical.choice, Quot.sound
* `C29_accessors`: propext, Classical.choice, Quot.sound
* `C29_rejects`: propext, Classical.choice, Quot.sound
* `C30_passed_events`: propext, Classical.choice, Quot.sound
* `C30_with_events`: propext, Classical.choice, Quot.sound
* `C31_append`: propext, Classical.choice, Quot.sound
* `C31_deal_resets`: propext, Classical.choice, Quot.sound
* `C32_hand`: propext, Classical.choice, Quot.sound
* `C32_after_deal`: propext, Classical.choice, Quot.sound
* `C32_others`: propext, Classical.choice, Quot.sound
* `C32_size`: propext, Classical.choice, Quot.sound
* `C33_invisible`: propext, Classical.choice, Quot.sound
* `C33_tile_zero_missed`: propext, Classical.choice, Quot.sound
* `C34_melds`: propext, Classical.choice, Quot.sound
* `C34_count`: propext, Quot.sound
* `C34_four_tiles`: propext, Classical.choice, Quot.sound
* `C35_discards`: propext, Classical.choice, Quot.sound
* `C35_doras`: propext, Classical.choice, Quot.sound
* `C36_schedules`: propext, Classical.choice, Quot.sound
* `C36_unique`: propext, Quot.sound
* `C36_read_all`: propext, Quot.sound
* `C36_stale_group_steals`: propext
* `C37_chunks`: propext, Classical.choice, Quot.sound
* `C37_record`: propext, Classical.choice, Quot.sound
* `C37_games`: propext, Classical.choice, Quot.sound
* `C38_smaller`: propext, Classical.choice, Quot.sound
* `C38_hundred`: propext, Classical.choice, Quot.sound
* `C38_entries`: propext, Classical.choice, Quot.sound
* `C38_converter_entries`: propext
* `C38_rank`: propext, Classical.choice, Quot.sound
* `C38_order`: propext, Classical.choice, Quot.sound
* `C38_printed`: propext, Classical.choice, Quot.sound
* `C39_inverse`: propext, Classical.choice, Quot.sound
* `C39_extra_parameters`: propext, Classical.choice, Quot.sound
* `C39_download`: propext, Classical.choice, Quot.sound
* `C40_concat`: propext, Classical.choice, Quot.sound
* `C40_successor`: propext, Classical.choice, Quot.sound
* `C40_other`: propext, Classical.choice, Quot.sound
* `C40_initial_count`: propext, Classical.choice, Quot.sound
* `C40_initial_length`: propext, Classical.choice, Quot.sound
* `C41_round_trip`: propext, Classical.choice, Quot.sound
* `C41_injective`: propext, Classical.choice, Quot.sound
* `C41_text_lost`: propext, Classical.choice, Quot.sound
* `C41_names`: propext, Classical.choice, Quot.sound
* `C41_digit_sub`: propext, Classical.choice, Quot.sound
* `C41_text_cells`: propext, Classical.choice, Quot.sound
* `C41_cells`: propext, Classical.choice, Quot.sound
* `C42_objects_new`: propext, Classical.choice, Quot.sound
* `C42_objects_set`: propext, Classical.choice, Quot.sound
* `C42_objects_drop`: propext, Classical.choice, Quot.sound
* `C42_objects_history`: propext, Classical.choice, Quot.sound
* `C42_set`: propext, Quot.sound
* `C42_goTo`: propext
* `C42_history`: propext, Quot.sound
* `C42_setdefault`: propext, Quot.sound
* `C42_objects_setdefault`: propext, Classical.choice, Quot.sound
* `C43_objects`: propext, Classical.choice, Quot.sound
* `C43_states`: propext, Classical.choice, Quot.sound
* `C43_errors`: propext, Classical.choice, Quot.sound
* `C44_lenient`: propext, Classical.choice, Quot.sound
* `C44_strict`: propext, Classical.choice, Quot.sound
* `C44_same`: propext, Classical.choice, Quot.sound
* `C45_table`: none
* `C45_one_type`: propext
* `C45_distinct`: none
* `C45_updates`: propext, Quot.sound
* `C45_equal`: propext, Classical.choice, Quot.sound
* `C45_python_equal`: propext, Classical.choice, Quot.sound
* `C45_equal_apart`: propext
* `C45_add_number`: propext, Classical.choice, Quot.sound
* `C45_remove_number`: propext, Classical.choice, Quot.sound
* `C45_add_list`: propext, Quot.sound
* `C46_remove`: propext, Quot.sound
* `C46_missing`: propext, Quot.sound
* `C46_add_remove`: propext, Quot.sound
* `C47_to_commands`: propext, Classical.choice, Quot.sound
* `C47_iterator`: propext, Classical.choice, Quot.sound
* `C47_interleaving_breaks`: propext, Classical.choice, Quot.sound
* `C48_hand`: propext, Classical.choice, Quot.sound
* `C49_discards`: propext, Classical.choice, Quot.sound
* `C50_end`: propext, Classical.choice, Quot.sound
* `C50_total`: propext, Classical.choice, Quot.sound
* `C50_during`: propext, Classical.choice, Quot.sound
* `C50_next_deal`: propext, Classical.choice, Quot.sound
* `C51_win`: propext, Classical.choice, Quot.sound
* `C51_draw`: propext, Classical.choice, Quot.sound
* `C51_yaku`: propext, Classical.choice, Quot.sound
* `C51_self_win_for_all`: propext, Classical.choice, Quot.sound
* `C51_hand`: propext, Classical.choice, Quot.sound
* `C51_hand_checked`: propext, Classical.choice, Quot.sound
* `C51_no_yaku`: propext, Classical.choice, Quot.sound
* `C52_scoping`: propext, Classical.choice, Quot.sound
* `C53_fixed_melds`: propext, Classical.choice, Quot.sound
* `C53_count`: propext, Classical.choice, Quot.sound
* `C53_added_kan_twice`: propext, Classical.choice, Quot.sound
* `C54_merge`: propext, Quot.sound
* `C54_order`: propext, Quot.sound
* `C54_returns`: propext, Classical.choice, Quot.sound
* `C55_count`: propext, Classical.choice, Quot.sound
* `C55_general`: propext, Classical.choice, Quot.sound
* `C55_merged`: propext, Classical.choice, Quot.sound
* `C55_red_five`: propext
* `C55_report`: propext, Classical.choice, Quot.sound
* `C56_expected`: propext, Classical.choice, Quot.sound
* `C56_report`: propext, Classical.choice, Quot.sound
* `C57_open`: propext, Classical.choice, Quot.sound
* `C57_concealed`: propext, Classical.choice, Quot.sound
* `C57_lower`: propext, Classical.choice, Quot.sound
* `C57_mixed_discards`: propext, Quot.sound
* `C58_reports`: propext, Classical.choice, Quot.sound
* `C58_number`: propext, Classical.choice, Quot.sound
* `C58_inputs`: propext, Classical.choice, Quot.sound
* `C58_outcome`: propext, Classical.choice, Quot.sound
* `C58_won_hand_fails`: propext, Classical.choice, Quot.sound
* `C59_falling`: propext, Quot.sound
* `C59_binomial`: propext, Classical.choice, Quot.sound
* `C59_rounded`: propext, Classical.choice, Quot.sound
* `C59_outside`: propext, Classical.choice, Quot.sound
* `C60_symbol`: propext, Quot.sound
* `C60_bijection`: propext, Quot.sound
* `C60_red_fives`: propext
* `C61_your_choice`: propext, Classical.choice, Quot.sound
* `C62_negative`: propext, Classical.choice, Quot.sound
* `C62_red_five`: propext, Classical.choice, Quot.sound
* `C62_steps`: propext, Classical.choice, Quot.sound
* `C62_upper`: propext, Classical.choice, Quot.sound
* `C62_right`: propext, Classical.choice, Quot.sound
* `C62_open`: propext, Classical.choice, Quot.sound
* `C63_samples`: propext, Classical.choice, Quot.sound
* `C63_win_counts`: propext, Classical.choice, Quot.sound
* `C63_total`: propext, Classical.choice, Quot.sound
* `C63_shares`: propext, Classical.choice, Quot.sound
* `C63_conceded`: propext, Classical.choice, Quot.sound
* `C64_matrix_exists`: propext, Classical.choice, Quot.sound
* `C64_columns`: propext, Classical.choice, Quot.sound
* `C64_rough_pick`: propext, Classical.choice, Quot.sound
* `C65_next`: propext, Quot.sound
* `C65_groups`: propext, Classical.choice, Quot.sound
* `C66_first_handler`: propext, Classical.choice, Quot.sound
* `C66_both_is_swapped`: propext, Classical.choice, Quot.sound
* `C66_tenhou`: propext, Classical.choice, Quot.sound
* `C67_draw_discard`: propext, Classical.choice, Quot.sound
* `C67_deal`: propext, Classical.choice, Quot.sound
* `C67_meld`: propext, Classical.choice, Quot.sound
* `C67_richii`: propext, Classical.choice, Quot.sound
* `C67_end`: propext, Classical.choice, Quot.sound
* `C67_game`: propext, Classical.choice, Quot.sound
* `C67_hand`: propext, Classical.choice, Quot.sound
* `C67_record`: propext, Classical.choice, Quot.sound
* `C68_code`: propext, Classical.choice, Quot.sound
* `C68_title`: propext, Classical.choice, Quot.sound
* `C68_distinct`: propext, Classical.choice, Quot.sound
* `C68_ends`: propext, Classical.choice, Quot.sound
* `C69_drop`: propext, Quot.sound
* `C69_flatten`: propext, Classical.choice, Quot.sound
* `C69_states`: propext, Classical.choice, Quot.sound
* `C70_commands`: propext, Classical.choice, Quot.sound
* `C70_records`: propext, Classical.choice, Quot.sound
* `C70_frames`: propext, Classical.choice, Quot.sound
* `C70_rate_becomes_text`: propext, Classical.choice, Quot.sound
* `C70_unseated`: propext, Classical.choice, Quot.sound
* `C71_rows`: propext, Classical.choice, Quot.sound
* `C71_order`: propext, Classical.choice, Quot.sound
* `C71_injective`: propext, Classical.choice, Quot.sound
* `C72_round_trip`: propext, Quot.sound
* `C72_scope`: none
* `C72_clean`: propext, Classical.choice, Quot.sound
* `C73_pick`: propext, Classical.choice, Quot.sound
* `C73_all`: propext, Quot.sound
* `C73_names`: propext, Classical.choice, Quot.sound
* `C73_one_record`: propext, Classical.choice, Quot.sound
* `C73_clash`: propext, Classical.choice, Quot.sound
* `C73_page`: propext, Classical.choice, Quot.sound
* `C73_link`: propext, Classical.choice, Quot.sound
* `C73_record_file`: propext, Classical.choice, Quot.sound
* `C73_checker`: propext, Classical.choice, Quot.sound
* `C73_run`: propext, Classical.choice, Quot.sound
* `C73_distinct`: propext, Classical.choice, Quot.sound
* `C74_pictures`: propext, Classical.choice, Quot.sound
* `C74_shown`: propext, Classical.choice, Quot.sound
* `C74_hand`: propext, Classical.choice, Quot.sound
* `C74_red_hidden`: propext, Classical.choice, Quot.sound
* `C75_players`: propext, Classical.choice, Quot.sound
* `C76_size`: propext, Classical.choice, Quot.sound
* `C76_outcome`: propext, Classical.choice, Quot.sound
* `C76_game`: propext, Classical.choice, Quot.sound
* `C76_shown`: propext, Classical.choice, Quot.sound
* `C77_tiles`: propext, Classical.choice, Quot.sound
* `C77_meld`: propext, Classical.choice, Quot.sound
* `C77_ends`: propext, Classical.choice, Quot.sound
* `C77_unparsed`: propext, Classical.choice, Quot.sound
* `C77_tells`: propext, Classical.choice, Quot.sound
* `C77_repr`: propext, Classical.choice, Quot.sound
* `C78_turns`: propext, Classical.choice, Quot.sound
* `C78_turns_others`: propext, Classical.choice, Quot.sound
* `C78_waits`: propext, Classical.choice, Quot.sound
* `C78_some_discard`: propext, Classical.choice, Quot.sound
* `C78_progress`: propext, Classical.choice, Quot.sound
* `C79_pairs_formula`: propext, Classical.choice, Quot.sound
* `C79_pairs_useful`: propext, Classical.choice, Quot.sound
* `C80_values`: propext, Classical.choice, Quot.sound
* `C80_hand`: propext, Classical.choice, Quot.sound
* `C80_same`: propext, Classical.choice, Quot.sound
* `C80_others`: propext, Classical.choice, Quot.sound
* `C80_disagree`: propext, Classical.choice, Quot.sound
* `C81_only`: propext, Classical.choice, Quot.sound
* `C81_keeps`: propext, Classical.choice, Quot.sound
* `C81_mover`: propext, Classical.choice, Quot.sound
* `C81_win_hand`: propext, Classical.choice, Quot.sound
* `C82_riichi`: propext, Classical.choice, Quot.sound
* `C82_connection`: propext, Classical.choice, Quot.sound
* `C83_round`: propext, Classical.choice, Quot.sound
* `C83_dealer`: propext, Classical.choice, Quot.sound
* `C83_dora`: propext, Classical.choice, Quot.sound
* `C84_go`: propext, Classical.choice, Quot.sound
* `C84_seed`: propext, Classical.choice, Quot.sound
* `C84_player`: propext, Classical.choice, Quot.sound
* `C84_reconnects`: propext, Classical.choice, Quot.sound
* `C85_final`: propext, Classical.choice, Quot.sound
* `C85_before_end`: propext, Classical.choice, Quot.sound
* `C85_nobody`: propext, Classical.choice, Quot.sound
* `C85_reason`: propext, Classical.choice, Quot.sound
* `C86_exact`: propext, Classical.choice, Quot.sound
* `C86_infinite`: propext, Classical.choice, Quot.sound
* `C86_refused`: propext, Classical.choice, Quot.sound
* `C86_one`: propext, Classical.choice, Quot.sound
* `C86_whole`: propext, Classical.choice, Quot.sound
* `C86_space`: propext, Classical.choice, Quot.sound
* `C86_same`: propext, Classical.choice, Quot.sound
* `C86_list`: propext, Classical.choice, Quot.sound
* `C87_same`: propext, Classical.choice, Quot.sound
* `C87_refuses`: propext, Classical.choice, Quot.sound
* `C87_skips`: propext, Classical.choice, Quot.sound
* `C87_unknown`: propext, Classical.choice, Quot.sound
* `C88_phrase`: propext, Classical.choice, Quot.sound
* `C88_order`: propext, Classical.choice, Quot.sound
* `C88_table`: propext, Classical.choice, Quot.sound
* `C89_label`: propext, Classical.choice, Quot.sound
* `C89_label_inj`: propext, Classical.choice, Quot.sound
* `C89_names`: propext, Classical.choice, Quot.sound
* `C89_unknown`: propext, Classical.choice, Quot.sound
* `C89_table`: propext, Classical.choice, Quot.sound
* `C90_open`: propext, Classical.choice, Quot.sound
* `C90_kept`: propext, Classical.choice, Quot.sound
* `C90_hand_size`: propext, Classical.choice, Quot.sound
* `C91_decode`: propext, Classical.choice, Quot.sound
* `C91_inj`: propext, Classical.choice, Quot.sound
* `C91_record`: propext, Classical.choice, Quot.sound
* `C91_converted`: propext, Classical.choice, Quot.sound
* `C91_every`: propext, Classical.choice, Quot.sound
* `C91_name`: propext, Classical.choice, Quot.sound
* `C91_not_text`: propext, Classical.choice, Quot.sound
* `C92_tags`: propext, Classical.choice, Quot.sound
* `C92_texts`: propext, Classical.choice, Quot.sound
* `C92_link`: propext, Classical.choice, Quot.sound
* `C93_games`: propext, Classical.choice, Quot.sound
* `C93_made`: propext, Classical.choice, Quot.sound
* `C93_expected`: propext, Classical.choice, Quot.sound
* `C93_page`: propext, Classical.choice, Quot.sound
* `C94_number`: propext, Classical.choice, Quot.sound
* `C94_player`: propext, Classical.choice, Quot.sound
* `C94_no_rank`: propext, Classical.choice, Quot.sound
* `C94_record`: propext, Classical.choice, Quot.sound
* `C94_pictures`: propext, Classical.choice, Quot.sound
* `C95_nearest`: propext, Classical.choice, Quot.sound
* `C95_round`: propext, Classical.choice, Quot.sound
* `C95_entry`: propext, Classical.choice, Quot.sound
* `C95_list`: propext, Classical.choice, Quot.sound
* `C95_order`: propext, Classical.choice, Quot.sound
* `C95_product`: propext, Classical.choice, Quot.sound
* `C95_product_inexact`: propext, Classical.choice, Quot.sound
* `C96_row`: propext, Classical.choice, Quot.sound
* `C97_file`: propext, Classical.choice, Quot.sound
* `C97_record`: propext, Classical.choice, Quot.sound
* `C97_missing_name`: propext, Classical.choice, Quot.sound
* `C97_carriage_return`: propext, Classical.choice, Quot.sound
* `C98_moves`: propext, Classical.choice, Quot.sound
* `C98_named`: propext, Classical.choice, Quot.sound
* `C98_choice`: propext, Classical.choice, Quot.sound
* `C98_nobody`: propext, Classical.choice, Quot.sound
* `C99_reads`: propext, Classical.choice, Quot.sound
* `C99_one_reading`: propext, Classical.choice, Quot.sound
* `C99_record`: propext, Classical.choice, Quot.sound
* `C99_layout`: propext, Classical.choice, Quot.sound
* `C99_elements`: propext, Classical.choice, Quot.sound
* `C99_tostring`: propext, Classical.choice, Quot.sound
* `C99_event_text`: propext, Classical.choice, Quot.sound
* `C99_written`: propext, Classical.choice, Quot.sound
* `C100_log_id`: propext, Classical.choice, Quot.sound
* `C100_no_extension`: propext, Classical.choice, Quot.sound
* `C100_rows`: propext, Classical.choice, Quot.sound
* `C100_tells`: propext, Classical.choice, Quot.sound
* `C101_values`: propext, Quot.sound
* `C101_later`: propext, Quot.sound
* `C101_states`: propext, Classical.choice, Quot.sound
* `C101_one`: propext, Quot.sound
* `C101_game`: propext, Classical.choice, Quot.sound
* `C101_game_later`: propext, Classical.choice, Quot.sound
* `C101_game_one`: propext
* `C102_replay`: propext, Classical.choice, Quot.sound
* `C102_table`: propext, Classical.choice, Quot.sound
* `C103_converts`: propext, Classical.choice, Quot.sound
* `C103_strict`: propext, Classical.choice, Quot.sound
* `C103_strict_records`: propext, Classical.choice, Quot.sound
* `C103_built`: propext, Classical.choice, Quot.sound
* `C103_file`: propext, Classical.choice, Quot.sound
* `C103_needs_tiles`: propext, Classical.choice, Quot.sound
* `C104_page`: propext, Classical.choice, Quot.sound
* `C104_made`: propext, Classical.choice, Quot.sound
* `C104_open`: propext, Classical.choice, Quot.sound
* `C104_stops`: propext, Classical.choice, Quot.sound
* `C105_asks_again`: propext, Classical.choice, Quot.sound
* `C105_report`: propext, Classical.choice, Quot.sound
* `C105_stops`: propext, Classical.choice, Quot.sound
* `C106_counters`: propext, Classical.choice, Quot.sound
* `C106_matrix`: propext, Classical.choice, Quot.sound
* `C106_columns`: propext, Classical.choice, Quot.sound
* `C107_match`: propext, Classical.choice, Quot.sound
* `C107_win_selections`: propext, Classical.choice, Quot.sound
* `C107_brute_force`: propext, Classical.choice, Quot.sound
* `C107_pattern_match`: propext, Quot.sound
* `C107_heuristic`: propext, Classical.choice, Quot.sound
* `C107_counts`: propext, Quot.sound
* `C108_less`: propext, Quot.sound
* `C108_order`: propext, Quot.sound
* `C108_equal`: propext, Classical.choice, Quot.sound
* `C108_trichotomy`: propext, Classical.choice, Quot.sound
* `C108_unsorted`: none
* `C108_operators`: propext, Quot.sound
* `C108_sorted`: propext, Quot.sound
* `C109_refused`: propext
* `C109_clear_apart`: propext, Classical.choice, Quot.sound
* `C109_clear_empties`: propext, Quot.sound
* `C109_states`: propext, Classical.choice, Quot.sound
* `C109_one_place`: propext
* `C109_clear_elsewhere`: propext, Quot.sound
* `C110_clean`: propext, Quot.sound
* `C110_nested`: propext, Classical.choice, Quot.sound
* `C110_crossed`: propext, Classical.choice, Quot.sound
