{
 "claims": [
  {
   "property": "C01",
   "status": "proved",
   "theorems": [
    "Verif.Props.C01_interning",
    "Verif.Props.C01_out_of_range_history",
    "Verif.Props.C01_aka_not_interned"
   ],
   "note": "Interning over every history of in-range calls; counterexample history outside the range is C01_out_of_range_history; red fives are never interned (C01_aka_not_interned)."
  },
  {
   "property": "C02",
   "status": "proved",
   "theorems": [
    "Verif.Props.C02_eq_equivalence",
    "Verif.Props.C02_lt_total",
    "Verif.Props.C02_lt_meaning",
    "Verif.Props.C02_hash",
    "Verif.Props.C02_red_five"
   ],
   "note": "Equivalence, strict total order, hash coherence, red five."
  },
  {
   "property": "C03",
   "status": "proved",
   "theorems": [
    "Verif.Props.C03_sub_category",
    "Verif.Props.C03_mixed_category",
    "Verif.Props.C03_mixed_needs_agreement",
    "Verif.Props.C03_tenhou_category",
    "Verif.Props.C03_open_category",
    "Verif.Props.C03_open_block"
   ],
   "note": "Sub categories, bounded or open, and mixed categories of any shape; counterexample when trailing sizes differ."
  },
  {
   "property": "C04",
   "status": "proved",
   "theorems": [
    "Verif.Props.C04_from_tenhou",
    "Verif.Props.C04_blocks",
    "Verif.Props.C04_range_inverse",
    "Verif.Props.C04_rejects_large",
    "Verif.Props.C04_negative_numbers",
    "Verif.Props.C04_red_range_wrong"
   ],
   "note": "All 136 numbers by a complete table, all other integers by proof (negatives are accepted as honours)."
  },
  {
   "property": "C05",
   "status": "proved",
   "theorems": [
    "Verif.Props.C05_operands_kept",
    "Verif.Props.C05_operations",
    "Verif.Props.C05_construct",
    "Verif.Props.C05_contains",
    "Verif.Props.C05_contains_hand",
    "Verif.Props.C05_exclude",
    "Verif.Props.C05_len_tiles",
    "Verif.Props.C05_resort"
   ],
   "note": "All TileSet operations as multiset operations; on objects, the operators make new ones and change none."
  },
  {
   "property": "C06",
   "status": "proved",
   "theorems": [
    "Verif.Props.C06_parse",
    "Verif.Props.C06_parse_group",
    "Verif.Props.C06_parse_junk",
    "Verif.Props.C06_roundtrip",
    "Verif.Props.C06_roundtrip_eq",
    "Verif.Props.C06_all_tiles"
   ],
   "note": "Parser equals a character-wise specification for every text; round trip for every tile set."
  },
  {
   "property": "C07",
   "status": "proved",
   "theorems": [
    "Verif.Props.C07_distinct",
    "Verif.Props.C07_distinct_summary"
   ],
   "note": "Snoc characterisation determines the output; generic in == and <."
  },
  {
   "property": "C08",
   "status": "proved",
   "theorems": [
    "Verif.Props.C08_normal_match"
   ],
   "note": "match iff p pairs and m runs/triplets fit in the hand."
  },
  {
   "property": "C09",
   "status": "proved",
   "theorems": [
    "Verif.Props.C09_sound"
   ],
   "note": "Soundness of every yielded selection."
  },
  {
   "property": "C10",
   "status": "proved",
   "theorems": [
    "Verif.Props.C10_exactly_once"
   ],
   "note": "Exactly-once enumeration of all ways to win."
  },
  {
   "property": "C11",
   "status": "proved",
   "theorems": [
    "Verif.Props.C11_unique_pairs_match"
   ],
   "note": "match iff at least n kinds occur twice."
  },
  {
   "property": "C12",
   "status": "proved",
   "theorems": [
    "Verif.Props.C12_hand_kept",
    "Verif.Props.C12_monotone",
    "Verif.Props.C12_kinds_only"
   ],
   "note": "Monotone, depends on kinds only; hand counts kept, on a model with objects."
  },
  {
   "property": "C13",
   "status": "proved",
   "theorems": [
    "Verif.Props.C13_brute_least"
   ],
   "note": "Returns n iff n+1 is least; returns iff reachable; -1 on wins."
  },
  {
   "property": "C14",
   "status": "proved",
   "theorems": [
    "Verif.Props.C14_pattern_match_least"
   ],
   "note": "Returns n iff n is the waiting step; returns iff a feasible win exists."
  },
  {
   "property": "C15",
   "status": "proved",
   "theorems": [
    "Verif.Props.C15_heuristic_least"
   ],
   "note": "For every leftover state; ok and ValueError characterised exactly."
  },
  {
   "property": "C16",
   "status": "proved",
   "theorems": [
    "Verif.Props.C16_algorithms_agree"
   ],
   "note": "Agreement on hands with at most four copies of a kind."
  },
  {
   "property": "C17",
   "status": "proved",
   "theorems": [
    "Verif.Props.C17_heuristic_useful",
    "Verif.Props.C17_heuristic_returns",
    "Verif.Props.C17_pattern_match_useful",
    "Verif.Props.C17_pattern_match_returns",
    "Verif.Props.C17_brute_useful",
    "Verif.Props.C17_brute_both",
    "Verif.Props.C17_brute_returns"
   ],
   "note": "Exact useful sets for the three classes, and when they return."
  },
  {
   "property": "C18",
   "status": "proved",
   "theorems": [
    "Verif.Props.C18_batch",
    "Verif.Props.C18_batch_reanalyse",
    "Verif.Props.C18_batch_returns"
   ],
   "note": "Exact batch result, both against the specification and against re-analysis through the API."
  },
  {
   "property": "C19",
   "status": "proved",
   "theorems": [
    "Verif.Props.C19_normal_never_fails",
    "Verif.Props.C19_seven_pairs_never_fails"
   ],
   "note": "Constructive bound 2m for m melds, 6 for seven pairs."
  },
  {
   "property": "C20",
   "status": "proved",
   "theorems": [
    "Verif.Props.C20_pattern_match_one_tile",
    "Verif.Props.C20_heuristic_one_tile",
    "Verif.Props.C20_brute_one_tile"
   ],
   "note": "Both directions, all three algorithms."
  },
  {
   "property": "C21",
   "status": "proved",
   "theorems": [
    "Verif.Props.C21_winning_hand",
    "Verif.Props.C21_pattern_match_never_minus_one"
   ],
   "note": "Positive part and the exception, with a witness hand."
  },
  {
   "property": "C22",
   "status": "proved",
   "theorems": [
    "Verif.Props.C22_hand_keeps_counts",
    "Verif.Props.C22_step_depends_on_kinds",
    "Verif.Props.C22_useful_depends_on_kinds"
   ],
   "note": "Steps and useful kinds depend on kinds only; the counts of the hand are kept, on a model with objects."
  },
  {
   "property": "C23",
   "status": "proved",
   "theorems": [
    "Verif.Props.C23_lifting_the_limit",
    "Verif.Props.C23_unlimited_step",
    "Verif.Props.C23_unlimited_useful",
    "Verif.Props.C23_unlimited_pattern_useful",
    "Verif.Props.C23_brute_ignores_flag"
   ],
   "note": "Positive part and the exception; useful tiles with the limit lifted for the two pattern-matching algorithms."
  },
  {
   "property": "C24",
   "status": "proved",
   "theorems": [
    "Verif.Props.C24_sample_without_replacement",
    "Verif.Props.C24_pick",
    "Verif.Props.C24_overdrawn",
    "Verif.Props.C24_choice_interval"
   ],
   "note": "random() is any multiple of 2^-53 below 1, the product with the sum of weights is rounded as Python does; containment, remaining wall, proportionality, and what a wall that is used up gives, for walls of at most 2^53 tiles."
  },
  {
   "property": "C25",
   "status": "proved",
   "theorems": [
    "Verif.Props.C25_unpack_repack",
    "Verif.Props.C25_field",
    "Verif.Props.C25_rejects",
    "Verif.Props.C25_descriptions"
   ],
   "note": "Any 16-bit layout; the parsed description texts equal the layouts used."
  },
  {
   "property": "C26",
   "status": "proved",
   "theorems": [
    "Verif.Props.C26_chi",
    "Verif.Props.C26_chi_all_codes"
   ],
   "note": "Every run code decodes to the run; every other chi code is rejected."
  },
  {
   "property": "C27",
   "status": "proved",
   "theorems": [
    "Verif.Props.C27_pon",
    "Verif.Props.C27_added_kan",
    "Verif.Props.C27_concealed_kan",
    "Verif.Props.C27_open_kan",
    "Verif.Props.C27_kita",
    "Verif.Props.C27_all_codes"
   ],
   "note": "All pon/kan/added-kan/kita codes."
  },
  {
   "property": "C28",
   "status": "proved",
   "theorems": [
    "Verif.Props.C28_shape",
    "Verif.Props.C28_kita_unchecked",
    "Verif.Props.C28_opened",
    "Verif.Props.C28_opened_added"
   ],
   "note": "All codes; a kita's tile number is not range-checked (shown)."
  },
  {
   "property": "C29",
   "status": "proved",
   "theorems": [
    "Verif.Props.C29_eq",
    "Verif.Props.C29_accessors",
    "Verif.Props.C29_rejects"
   ],
   "note": "All 16-bit codes; exact str() text."
  },
  {
   "property": "C30",
   "status": "proved",
   "theorems": [
    "Verif.Props.C30_passed_events",
    "Verif.Props.C30_with_events"
   ],
   "note": "Every state including nested collections, every event list, exceptions included."
  },
  {
   "property": "C31",
   "status": "proved",
   "theorems": [
    "Verif.Props.C31_append",
    "Verif.Props.C31_deal_resets"
   ],
   "note": "Every split; every deal."
  },
  {
   "property": "C32",
   "status": "proved",
   "theorems": [
    "Verif.Props.C32_hand",
    "Verif.Props.C32_after_deal",
    "Verif.Props.C32_others",
    "Verif.Props.C32_size"
   ],
   "note": "Every sequence of legal moves; size for consistent games."
  },
  {
   "property": "C33",
   "status": "proved",
   "theorems": [
    "Verif.Props.C33_invisible",
    "Verif.Props.C33_tile_zero_missed"
   ],
   "note": "Statement includes the two ways in which the code departs from 'publicly shown tiles': tile number 0 and three-player tuples."
  },
  {
   "property": "C34",
   "status": "proved",
   "theorems": [
    "Verif.Props.C34_melds",
    "Verif.Props.C34_count",
    "Verif.Props.C34_four_tiles"
   ],
   "note": "Every sequence of legal moves since a deal."
  },
  {
   "property": "C35",
   "status": "proved",
   "theorems": [
    "Verif.Props.C35_discards",
    "Verif.Props.C35_doras"
   ],
   "note": "Every sequence of legal moves since a deal."
  },
  {
   "property": "C36",
   "status": "proved",
   "theorems": [
    "Verif.Props.C36_schedules",
    "Verif.Props.C36_unique",
    "Verif.Props.C36_read_all",
    "Verif.Props.C36_stale_group_steals"
   ],
   "note": "Every schedule that reads from the newest group sees the unique valid maximal partition; C36_stale_group_steals is the counterexample for resuming an old group."
  },
  {
   "property": "C37",
   "status": "proved",
   "theorems": [
    "Verif.Props.C37_chunks",
    "Verif.Props.C37_record",
    "Verif.Props.C37_games"
   ],
   "note": "Chunks of every event list meeting the stated condition, and what a built record keeps."
  },
  {
   "property": "C38",
   "status": "proved",
   "theorems": [
    "Verif.Props.C38_smaller",
    "Verif.Props.C38_hundred",
    "Verif.Props.C38_entries",
    "Verif.Props.C38_converter_entries",
    "Verif.Props.C38_rank",
    "Verif.Props.C38_order",
    "Verif.Props.C38_printed"
   ],
   "note": "Numbers are exact decimals; that rounding them to floats does not change the order is C95_order."
  },
  {
   "property": "C39",
   "status": "proved",
   "theorems": [
    "Verif.Props.C39_inverse",
    "Verif.Props.C39_extra_parameters",
    "Verif.Props.C39_download"
   ],
   "note": "urlparse/parse_qs modelled for the query part; percent decoding and the ; separator are parameters of the theorems."
  },
  {
   "property": "C40",
   "status": "proved",
   "theorems": [
    "Verif.Props.C40_concat",
    "Verif.Props.C40_successor",
    "Verif.Props.C40_other",
    "Verif.Props.C40_initial_count",
    "Verif.Props.C40_initial_length"
   ],
   "note": "Full table of indicators, all other texts raise; copies of every tile."
  },
  {
   "property": "C41",
   "status": "proved",
   "theorems": [
    "Verif.Props.C41_round_trip",
    "Verif.Props.C41_injective",
    "Verif.Props.C41_text_lost",
    "Verif.Props.C41_names",
    "Verif.Props.C41_digit_sub",
    "Verif.Props.C41_text_cells",
    "Verif.Props.C41_cells"
   ],
   "note": "JSON writer and reader modelled for nested lists, texts with escapes and surrogate pairs, integers and decimals; exponent notation, dictionaries and the CSV file format are not."
  },
  {
   "property": "C42",
   "status": "proved",
   "theorems": [
    "Verif.Props.C42_objects_new",
    "Verif.Props.C42_objects_set",
    "Verif.Props.C42_objects_drop",
    "Verif.Props.C42_objects_history",
    "Verif.Props.C42_set",
    "Verif.Props.C42_goTo",
    "Verif.Props.C42_history",
    "Verif.Props.C42_setdefault",
    "Verif.Props.C42_objects_setdefault"
   ],
   "note": "Every tree, path and write history, on values and on objects with parent links (the original objects do not change); also drop and the two different results of setdefault, both on objects too."
  },
  {
   "property": "C43",
   "status": "proved",
   "theorems": [
    "Verif.Props.C43_objects",
    "Verif.Props.C43_states",
    "Verif.Props.C43_errors"
   ],
   "note": "Every command list the executor addresses; yielded states and exceptions, on values and on objects (C43_objects)."
  },
  {
   "property": "C44",
   "status": "proved",
   "theorems": [
    "Verif.Props.C44_lenient",
    "Verif.Props.C44_strict",
    "Verif.Props.C44_same"
   ],
   "note": "Mismatch is stated with the interpreter's state, independent of the executor."
  },
  {
   "property": "C45",
   "status": "proved",
   "theorems": [
    "Verif.Props.C45_table",
    "Verif.Props.C45_one_type",
    "Verif.Props.C45_distinct",
    "Verif.Props.C45_updates",
    "Verif.Props.C45_equal",
    "Verif.Props.C45_python_equal",
    "Verif.Props.C45_equal_apart",
    "Verif.Props.C45_add_number",
    "Verif.Props.C45_remove_number",
    "Verif.Props.C45_add_list"
   ],
   "note": "Complete table of the 38 properties, all values."
  },
  {
   "property": "C46",
   "status": "proved",
   "theorems": [
    "Verif.Props.C46_remove",
    "Verif.Props.C46_missing",
    "Verif.Props.C46_add_remove"
   ],
   "note": "Counts up to Python's ==, order kept, exact failure condition."
  },
  {
   "property": "C47",
   "status": "proved",
   "theorems": [
    "Verif.Props.C47_to_commands",
    "Verif.Props.C47_iterator",
    "Verif.Props.C47_interleaving_breaks"
   ],
   "note": "Every history of calls and iterators, with any context left behind by a failed call; interleaving counterexample."
  },
  {
   "property": "C48",
   "status": "proved",
   "theorems": [
    "Verif.Props.C48_hand"
   ],
   "note": "Every consistent sequence of legal moves after a deal, any earlier context; states compared before the game's end event."
  },
  {
   "property": "C49",
   "status": "proved",
   "theorems": [
    "Verif.Props.C49_discards"
   ],
   "note": "Every sequence of legal moves after a deal."
  },
  {
   "property": "C50",
   "status": "proved",
   "theorems": [
    "Verif.Props.C50_end",
    "Verif.Props.C50_total",
    "Verif.Props.C50_during",
    "Verif.Props.C50_next_deal"
   ],
   "note": "Integer scores; the attributes owari etc. are not read by the code."
  },
  {
   "property": "C51",
   "status": "proved",
   "theorems": [
    "Verif.Props.C51_win",
    "Verif.Props.C51_draw",
    "Verif.Props.C51_yaku",
    "Verif.Props.C51_self_win_for_all",
    "Verif.Props.C51_hand",
    "Verif.Props.C51_hand_checked",
    "Verif.Props.C51_no_yaku"
   ],
   "note": "All winners, losers and player counts; includes how the yaku text is named."
  },
  {
   "property": "C52",
   "status": "proved",
   "theorems": [
    "Verif.Props.C52_scoping"
   ],
   "note": "Every finite program of calls, raises, with-blocks and try-blocks."
  },
  {
   "property": "C53",
   "status": "proved",
   "theorems": [
    "Verif.Props.C53_fixed_melds",
    "Verif.Props.C53_count",
    "Verif.Props.C53_added_kan_twice"
   ],
   "note": "Every sequence of legal moves after a deal; count relation to PlayerMeld and the double entry of an added kan."
  },
  {
   "property": "C54",
   "status": "proved",
   "theorems": [
    "Verif.Props.C54_merge",
    "Verif.Props.C54_order",
    "Verif.Props.C54_returns"
   ],
   "note": "merge: step, kinds, order independence, when it returns"
  },
  {
   "property": "C55",
   "status": "proved",
   "theorems": [
    "Verif.Props.C55_count",
    "Verif.Props.C55_general",
    "Verif.Props.C55_merged",
    "Verif.Props.C55_red_five",
    "Verif.Props.C55_report"
   ],
   "note": "for plain tiles of different kinds; in a report unless a five is useful of which the red one is in the hand; general formula and the red-five counterexample also proved"
  },
  {
   "property": "C56",
   "status": "proved",
   "theorems": [
    "Verif.Props.C56_expected",
    "Verif.Props.C56_report"
   ],
   "note": "for the list and in the report"
  },
  {
   "property": "C57",
   "status": "proved",
   "theorems": [
    "Verif.Props.C57_open",
    "Verif.Props.C57_concealed",
    "Verif.Props.C57_lower",
    "Verif.Props.C57_mixed_discards"
   ],
   "note": "open hands: exact analysis; concealed hands nearer to melds than to pairs: every item right (C57_lower); other concealed hands: exact description of the positional merge and a machine-checked hand where it mixes two discards"
  },
  {
   "property": "C58",
   "status": "proved",
   "theorems": [
    "Verif.Props.C58_reports",
    "Verif.Props.C58_number",
    "Verif.Props.C58_inputs",
    "Verif.Props.C58_outcome",
    "Verif.Props.C58_won_hand_fails"
   ],
   "note": "one report per discard from the states before it; exact failure conditions; a machine-checked game for which the call raises"
  },
  {
   "property": "C59",
   "status": "proved",
   "theorems": [
    "Verif.Props.C59_falling",
    "Verif.Props.C59_binomial",
    "Verif.Props.C59_rounded",
    "Verif.Props.C59_outside"
   ],
   "note": "for all natural arguments, in floats; behaviour outside 0<=r<=n stated in C59_outside"
  },
  {
   "property": "C60",
   "status": "proved",
   "theorems": [
    "Verif.Props.C60_symbol",
    "Verif.Props.C60_bijection",
    "Verif.Props.C60_red_fives"
   ],
   "note": "bijection on the 34 plain kinds; red fives stated separately"
  },
  {
   "property": "C61",
   "status": "proved",
   "theorems": [
    "Verif.Props.C61_your_choice"
   ],
   "note": "for every hand and number of melds"
  },
  {
   "property": "C62",
   "status": "proved",
   "theorems": [
    "Verif.Props.C62_negative",
    "Verif.Props.C62_red_five",
    "Verif.Props.C62_steps",
    "Verif.Props.C62_upper",
    "Verif.Props.C62_right",
    "Verif.Props.C62_open"
   ],
   "note": "in floats; open hands, and concealed ones whose analysis is right (C62_right with C57_lower), unless a five is useful of which the red one is in the hand; the upper bound and the possible steps for all hands; counterexamples to the lower bound for concealed hands and red fives are theorems too. Lists of unseen tiles have at most 2^53 (2^45 for the upper bound) entries."
  },
  {
   "property": "C63",
   "status": "proved",
   "theorems": [
    "Verif.Props.C63_samples",
    "Verif.Props.C63_win_counts",
    "Verif.Props.C63_total",
    "Verif.Props.C63_shares",
    "Verif.Props.C63_conceded"
   ],
   "note": "random source as a parameter; the shares are exact here, C106 bounds the error of the floats"
  },
  {
   "property": "C64",
   "status": "proved",
   "theorems": [
    "Verif.Props.C64_matrix_exists",
    "Verif.Props.C64_columns",
    "Verif.Props.C64_rough_pick"
   ],
   "note": "the eigenvector computed by numpy is not modelled; entries are exact here, C106 bounds the error of the floats"
  },
  {
   "property": "C65",
   "status": "proved",
   "theorems": [
    "Verif.Props.C65_next",
    "Verif.Props.C65_groups"
   ],
   "note": ""
  },
  {
   "property": "C66",
   "status": "proved",
   "theorems": [
    "Verif.Props.C66_first_handler",
    "Verif.Props.C66_both_is_swapped",
    "Verif.Props.C66_tenhou"
   ],
   "note": "the swapped lookup of match_both is stated as it is in the code"
  },
  {
   "property": "C67",
   "status": "proved",
   "theorems": [
    "Verif.Props.C67_draw_discard",
    "Verif.Props.C67_deal",
    "Verif.Props.C67_meld",
    "Verif.Props.C67_richii",
    "Verif.Props.C67_end",
    "Verif.Props.C67_game",
    "Verif.Props.C67_hand",
    "Verif.Props.C67_record"
   ],
   "note": "Rows are ordered dictionaries; the DORA event's row holds Tile objects, the deal's row text. %d of fractions is not modelled."
  },
  {
   "property": "C68",
   "status": "proved",
   "theorems": [
    "Verif.Props.C68_code",
    "Verif.Props.C68_title",
    "Verif.Props.C68_distinct",
    "Verif.Props.C68_ends"
   ],
   "note": "Names of players are an arbitrary decoding of the encoded names."
  },
  {
   "property": "C69",
   "status": "proved",
   "theorems": [
    "Verif.Props.C69_drop",
    "Verif.Props.C69_flatten",
    "Verif.Props.C69_states"
   ],
   "note": "drop and flatten for arbitrary nested dictionaries; C69_states combines flatten with the executor (C43) for commands whose sub scope and property exist (Addressed). How pandas turns the rows into a frame is not modelled."
  },
  {
   "property": "C70",
   "status": "proved",
   "theorems": [
    "Verif.Props.C70_commands",
    "Verif.Props.C70_records",
    "Verif.Props.C70_frames",
    "Verif.Props.C70_rate_becomes_text",
    "Verif.Props.C70_unseated"
   ],
   "note": "For events naming players 0..3 only (C70_unseated shows why). pandas' storage of rows is not modelled; the text of floats is a parameter."
  },
  {
   "property": "C71",
   "status": "proved",
   "theorems": [
    "Verif.Props.C71_rows",
    "Verif.Props.C71_order",
    "Verif.Props.C71_injective"
   ],
   "note": "For elements as an XML parser gives them (Spec.Element)."
  },
  {
   "property": "C72",
   "status": "proved",
   "theorems": [
    "Verif.Props.C72_round_trip",
    "Verif.Props.C72_scope",
    "Verif.Props.C72_clean"
   ],
   "note": "Over the same translation as C70; hypothesis: events name players 0 to 3. The added columns are texts."
  },
  {
   "property": "C73",
   "status": "proved",
   "theorems": [
    "Verif.Props.C73_pick",
    "Verif.Props.C73_all",
    "Verif.Props.C73_names",
    "Verif.Props.C73_one_record",
    "Verif.Props.C73_clash",
    "Verif.Props.C73_page",
    "Verif.Props.C73_link",
    "Verif.Props.C73_record_file",
    "Verif.Props.C73_checker",
    "Verif.Props.C73_run",
    "Verif.Props.C73_distinct"
   ],
   "note": "The record is taken as already read; a page is what the template is given here, the page itself is C92 to C94. Digits typed are ASCII."
  },
  {
   "property": "C74",
   "status": "proved",
   "theorems": [
    "Verif.Props.C74_pictures",
    "Verif.Props.C74_shown",
    "Verif.Props.C74_hand",
    "Verif.Props.C74_red_hidden"
   ],
   "note": "For reports that are made (C58 says which are)."
  },
  {
   "property": "C75",
   "status": "proved",
   "theorems": [
    "Verif.Props.C75_players"
   ],
   "note": ""
  },
  {
   "property": "C76",
   "status": "proved",
   "theorems": [
    "Verif.Props.C76_size",
    "Verif.Props.C76_outcome",
    "Verif.Props.C76_game",
    "Verif.Props.C76_shown"
   ],
   "note": "Uses C32, C34, C58 and C74. Other players' moves only need to be readable."
  },
  {
   "property": "C77",
   "status": "proved",
   "theorems": [
    "Verif.Props.C77_tiles",
    "Verif.Props.C77_meld",
    "Verif.Props.C77_ends",
    "Verif.Props.C77_unparsed",
    "Verif.Props.C77_tells",
    "Verif.Props.C77_repr"
   ],
   "note": "repr of an event always raises, which is proved too"
  },
  {
   "property": "C78",
   "status": "proved",
   "theorems": [
    "Verif.Props.C78_turns",
    "Verif.Props.C78_turns_others",
    "Verif.Props.C78_waits",
    "Verif.Props.C78_some_discard",
    "Verif.Props.C78_progress"
   ],
   "note": "hands with at most four of a kind"
  },
  {
   "property": "C79",
   "status": "proved",
   "theorems": [
    "Verif.Props.C79_pairs_formula",
    "Verif.Props.C79_pairs_useful"
   ],
   "note": "p up to 34, the number of kinds"
  },
  {
   "property": "C80",
   "status": "proved",
   "theorems": [
    "Verif.Props.C80_values",
    "Verif.Props.C80_hand",
    "Verif.Props.C80_same",
    "Verif.Props.C80_others",
    "Verif.Props.C80_disagree"
   ],
   "note": "the different reading of the own hand is proved too"
  },
  {
   "property": "C81",
   "status": "proved",
   "theorems": [
    "Verif.Props.C81_only",
    "Verif.Props.C81_keeps",
    "Verif.Props.C81_mover",
    "Verif.Props.C81_win_hand"
   ],
   "note": "the table of properties is in Spec/Effects.lean"
  },
  {
   "property": "C82",
   "status": "proved",
   "theorems": [
    "Verif.Props.C82_riichi",
    "Verif.Props.C82_connection"
   ],
   "note": "C82_riichi: since the deal, in riichi iff declared; C82_connection: as the last BYE/UN about the player says."
  },
  {
   "property": "C83",
   "status": "proved",
   "theorems": [
    "Verif.Props.C83_round",
    "Verif.Props.C83_dealer",
    "Verif.Props.C83_dora"
   ],
   "note": "For records GO..INIT..: wind, round, repeats, sticks (C83_round, including that later winds cannot be converted), dealer (C83_dealer, also TAIKYOKU), indicators (C83_dora)."
  },
  {
   "property": "C84",
   "status": "proved",
   "theorems": [
    "Verif.Props.C84_go",
    "Verif.Props.C84_seed",
    "Verif.Props.C84_player",
    "Verif.Props.C84_reconnects"
   ],
   "note": "GO converts for every 16-bit type and sets the header (C84_go); SHUFFLE (C84_seed); UN (C84_player). A rank number below zero gives a title counted from the end."
  },
  {
   "property": "C85",
   "status": "proved",
   "theorems": [
    "Verif.Props.C85_final",
    "Verif.Props.C85_before_end",
    "Verif.Props.C85_nobody",
    "Verif.Props.C85_reason"
   ],
   "note": "Final scores, points and places (C85_final), nothing else sets them (C85_before_end), nobody_win (C85_nobody), reasons (C85_reason)."
  },
  {
   "property": "C86",
   "status": "proved",
   "theorems": [
    "Verif.Props.C86_exact",
    "Verif.Props.C86_infinite",
    "Verif.Props.C86_refused",
    "Verif.Props.C86_one",
    "Verif.Props.C86_whole",
    "Verif.Props.C86_space",
    "Verif.Props.C86_same",
    "Verif.Props.C86_list"
   ],
   "note": "Decimals are exact rationals in the model; the rounding to floats is C95. Not modelled: digits outside ASCII, which int and float also accept, and floats too large or too small for the exponent (1e400 is read as a number, in Python it raises OverflowError)."
  },
  {
   "property": "C87",
   "status": "proved",
   "theorems": [
    "Verif.Props.C87_same",
    "Verif.Props.C87_refuses",
    "Verif.Props.C87_skips",
    "Verif.Props.C87_unknown"
   ],
   "note": "C87_refuses assumes that lenient conversion of the record succeeds: if a silent event also has unreadable attributes, or an earlier event raises, that exception comes first."
  },
  {
   "property": "C88",
   "status": "proved",
   "theorems": [
    "Verif.Props.C88_phrase",
    "Verif.Props.C88_order",
    "Verif.Props.C88_table"
   ],
   "note": "default_event_type and Builder contexts are modelled by the keywords each command ends up with (C52 models the builder)."
  },
  {
   "property": "C89",
   "status": "proved",
   "theorems": [
    "Verif.Props.C89_label",
    "Verif.Props.C89_label_inj",
    "Verif.Props.C89_names",
    "Verif.Props.C89_unknown",
    "Verif.Props.C89_table"
   ],
   "note": "what pandas makes of the file is the relation TableOf/TableCell (each cell the text, or the truth value, number or missing value it stands for); text properties are given back as the text of their cell, so a missing one is 'nan'"
  },
  {
   "property": "C90",
   "status": "proved",
   "theorems": [
    "Verif.Props.C90_open",
    "Verif.Props.C90_kept",
    "Verif.Props.C90_hand_size"
   ],
   "note": "Tiles of calls are the decoded ones (C26-C28). After a win the hand of the winner is set anew, see C81."
  },
  {
   "property": "C91",
   "status": "proved",
   "theorems": [
    "Verif.Props.C91_decode",
    "Verif.Props.C91_inj",
    "Verif.Props.C91_record",
    "Verif.Props.C91_converted",
    "Verif.Props.C91_every",
    "Verif.Props.C91_name",
    "Verif.Props.C91_not_text"
   ],
   "note": "unquote of the standard library is modelled in Py/Unquote.lean: the decoder as a state machine over bytes. The encoding is specified with Lean's own UTF-8 encoder of a character. C91_every says what every text is decoded to, also where its bytes are no text, in terms of that encoder and of unfinished characters only."
  },
  {
   "property": "C92",
   "status": "proved",
   "theorems": [
    "Verif.Props.C92_tags",
    "Verif.Props.C92_texts",
    "Verif.Props.C92_link"
   ],
   "note": "A browser is the reader of pages in Spec/Html.lean; the template is written out as jinja2 renders it, with markupsafe's escaping."
  },
  {
   "property": "C93",
   "status": "proved",
   "theorems": [
    "Verif.Props.C93_games",
    "Verif.Props.C93_made",
    "Verif.Props.C93_expected",
    "Verif.Props.C93_page"
   ],
   "note": "The text of a float (the strength of a colour) is a parameter."
  },
  {
   "property": "C94",
   "status": "proved",
   "theorems": [
    "Verif.Props.C94_number",
    "Verif.Props.C94_player",
    "Verif.Props.C94_no_rank",
    "Verif.Props.C94_record",
    "Verif.Props.C94_pictures"
   ],
   "note": "Decimals are rounded from the nearest float, as Python does."
  },
  {
   "property": "C95",
   "status": "proved",
   "theorems": [
    "Verif.Props.C95_nearest",
    "Verif.Props.C95_round",
    "Verif.Props.C95_entry",
    "Verif.Props.C95_list",
    "Verif.Props.C95_order",
    "Verif.Props.C95_product",
    "Verif.Props.C95_product_inexact"
   ],
   "note": "Floats have 53 bits and any exponent: overflow, underflow, infinities and negative zero are not modelled."
  },
  {
   "property": "C96",
   "status": "proved",
   "theorems": [
    "Verif.Props.C96_row"
   ],
   "note": "From the events of a record to what is read off the page text. The numbers of tiles and the advice are claimed unless a five is useful of which the red one is held (C62_red_five shows why); a red five to discard may be named as a plain one or the other way round if both are held (C74_red_hidden); for a hand without melds the advice is claimed when the hand is nearer to four melds and a pair than to seven pairs (C57_mixed_discards shows why); with three players unseen tiles are numbered as in C33."
  },
  {
   "property": "C97",
   "status": "proved",
   "theorems": [
    "Verif.Props.C97_file",
    "Verif.Props.C97_record",
    "Verif.Props.C97_missing_name",
    "Verif.Props.C97_carriage_return"
   ],
   "note": "csv.writer, the tokenizer of read_csv and the columns are modelled; the type inference of pandas is any function that reads each cell as missing, as its text, or as the truth value or number it writes. C97_missing_name and C97_carriage_return are proved disagreements."
  },
  {
   "property": "C98",
   "status": "proved",
   "theorems": [
    "Verif.Props.C98_moves",
    "Verif.Props.C98_named",
    "Verif.Props.C98_choice",
    "Verif.Props.C98_nobody"
   ],
   "note": "the predicates of a player on all legal moves; reaches and wins are the elements REACH and AGARI that name the player"
  },
  {
   "property": "C99",
   "status": "proved",
   "theorems": [
    "Verif.Props.C99_reads",
    "Verif.Props.C99_one_reading",
    "Verif.Props.C99_record",
    "Verif.Props.C99_layout",
    "Verif.Props.C99_elements",
    "Verif.Props.C99_tostring",
    "Verif.Props.C99_event_text",
    "Verif.Props.C99_written"
   ],
   "note": "for the part of XML that records use: text that is not white space, comments, CDATA, processing instructions, document types and names outside ASCII are refused by the model (expat reads them); decoding of bytes is not modelled"
  },
  {
   "property": "C100",
   "status": "proved",
   "theorems": [
    "Verif.Props.C100_log_id",
    "Verif.Props.C100_no_extension",
    "Verif.Props.C100_rows",
    "Verif.Props.C100_tells"
   ],
   "note": "POSIX paths; the table is a list of rows"
  },
  {
   "property": "C101",
   "status": "proved",
   "theorems": [
    "Verif.Props.C101_values",
    "Verif.Props.C101_later",
    "Verif.Props.C101_states",
    "Verif.Props.C101_one",
    "Verif.Props.C101_game",
    "Verif.Props.C101_game_later",
    "Verif.Props.C101_game_one"
   ],
   "note": "Python lists and sets as cells of a heap with references; refinement of the models on values (Command, Executor, State). Dictionaries are values here; as objects with parent links see C42."
  },
  {
   "property": "C102",
   "status": "proved",
   "theorems": [
    "Verif.Props.C102_replay",
    "Verif.Props.C102_table"
   ],
   "note": "Composition of C97, C99, C43, C70, C48, C49, C50 and C90. Texts (names and reasons) may be read back differently, as C97 says; a carriage return in a text needs the line end of Windows."
  },
  {
   "property": "C103",
   "status": "proved",
   "theorems": [
    "Verif.Props.C103_converts",
    "Verif.Props.C103_strict",
    "Verif.Props.C103_strict_records",
    "Verif.Props.C103_built",
    "Verif.Props.C103_file",
    "Verif.Props.C103_needs_tiles"
   ],
   "note": "The shape of a regular record is a specification of its own (Spec/Regular.lean), in terms of elements and attributes; the game of C70 is shown to be a complete record. Elements of a round may come in any order that keeps players to the tiles they hold. The six records of the repository satisfy the hypotheses (Conform/Records.lean)."
  },
  {
   "property": "C104",
   "status": "proved",
   "theorems": [
    "Verif.Props.C104_page",
    "Verif.Props.C104_made",
    "Verif.Props.C104_open",
    "Verif.Props.C104_stops"
   ],
   "note": "Composition of C103, C99, C75, C68, C76, C93, C94 and C96. For concealed hands as near to seven pairs as to melds, or whose keeping discards are not all compared, and for hands to which a five is useful of which they hold the red one, the exact condition of the division by zero is not stated in terms of the game, only that it is the one other outcome; what the rows say of such hands is as in C96. The six records of the repository satisfy the hypotheses for every player (Conform/Records.lean)."
  },
  {
   "property": "C105",
   "status": "proved",
   "theorems": [
    "Verif.Props.C105_asks_again",
    "Verif.Props.C105_report",
    "Verif.Props.C105_stops"
   ],
   "note": "The rates are whatever finite real numbers numpy computes; the prompts and the lines about progress and time are not modelled."
  },
  {
   "property": "C106",
   "status": "proved",
   "theorems": [
    "Verif.Props.C106_counters",
    "Verif.Props.C106_matrix",
    "Verif.Props.C106_columns"
   ],
   "note": "Floats have 53 bits and any exponent, rounded to nearest with ties to even; what numpy computes from the matrix is not modelled."
  },
  {
   "property": "C107",
   "status": "proved",
   "theorems": [
    "Verif.Props.C107_match",
    "Verif.Props.C107_win_selections",
    "Verif.Props.C107_brute_force",
    "Verif.Props.C107_pattern_match",
    "Verif.Props.C107_heuristic",
    "Verif.Props.C107_counts"
   ],
   "note": "Model/SetStore.lean runs the calls on a list of objects. What a consumer does between two yields is done after the last one; formatting for logging.debug (off by default) is not modelled."
  },
  {
   "property": "C108",
   "status": "proved",
   "theorems": [
    "Verif.Props.C108_less",
    "Verif.Props.C108_order",
    "Verif.Props.C108_equal",
    "Verif.Props.C108_trichotomy",
    "Verif.Props.C108_unsorted",
    "Verif.Props.C108_operators",
    "Verif.Props.C108_sorted"
   ],
   "note": "Operators as in Python up to 3.9: dict has all four comparisons, so total_ordering adds none. Since 3.10 Counter has its own <=, > and >=."
  },
  {
   "property": "C109",
   "status": "proved",
   "theorems": [
    "Verif.Props.C109_refused",
    "Verif.Props.C109_clear_apart",
    "Verif.Props.C109_clear_empties",
    "Verif.Props.C109_states",
    "Verif.Props.C109_one_place",
    "Verif.Props.C109_clear_elsewhere"
   ],
   "note": "On the model with objects (Model/DictStore.lean). Assigning to attributes and reaching into nested_dict are not modelled."
  },
  {
   "property": "C110",
   "status": "proved",
   "theorems": [
    "Verif.Props.C110_clean",
    "Verif.Props.C110_nested",
    "Verif.Props.C110_crossed"
   ],
   "note": "The constructor does not raise here (C52 has exceptions). The handlers of the repository each make a builder of their own, so crossed blocks do not occur in it."
  }
 ]
}