#!/usr/bin/env python3
"""Single source of /verif/properties.jsonl (run: python3 tools/props.py)."""
import json, os
P = []
def p(title, statement, quantifier, why, *anchors):
    P.append(dict(id="C%02d" % (len(P) + 1), title=title, statement=statement,
                  quantifier=quantifier, why_tests_cant=why, anchors=list(anchors)))

# ---------------------------------------------------------------- tiles / containers
p("Interned tile constructor returns the requested tile",
  "Whatever sequence of Tile(number, color) calls with 0 <= number <= 9 was made before, Tile(n, c) with 0 <= n <= 9 and c in 'mpsz' returns a tile whose .number is n and .color is c, and two calls with the same arguments return the same object. (After a call outside 0..9 the hash-keyed pool may hand back a different tile: Tile(10, 'm') then Tile(0, 'p') gives 10m.)",
  "every history of in-range constructor calls (including the calls the constructor itself makes for runs and sets) and every in-range (number, colour)",
  "the result depends on a process-global pool, so on the whole history of earlier calls; a test sees one history",
  "mahjong/tile/definition.py:Tile.__new__", "mahjong/tile/definition.py:tile_hash_num")
p("Tile equality, hashing and ordering are coherent, and a red five is a five",
  "== on tiles (plain and red) is an equivalence, < is a strict total order up to ==, equal tiles have equal hashes, the derived <=, >, >= agree with < and ==, and AkaTile(0, c) is == to Tile(5, c) and to no other tile.",
  "every pair/triple of tiles with any integer number, any of the four colours, red or plain",
  "laws over pairs and triples of an infinite domain",
  "mahjong/tile/definition.py:Tile.__eq__", "mahjong/tile/definition.py:Tile.__lt__", "mahjong/tile/definition.py:AkaTile")
p("Category index/category are mutually inverse",
  "For a SubCategory with positive totals, category(i) followed by index gives back i for every 0 <= i < product, and index(t) lies in range and category(index(t)) = t for every tuple t of in-range digits. For a MixedCategory of bounded sub-categories whose trailing totals agree (the only kind the library builds) the same holds over the concatenated range; without that agreement index can be wrong. With -1 as first total there is no upper bound: category and index are inverse to each other between all integers and the tuples with any integer in front, len raises TypeError, and such a category cannot be put in a MixedCategory.",
  "every list of positive totals (any number of dimensions), every list of blocks, every index and every tuple",
  "unbounded dimensions and sizes; tests use three fixed shapes",
  "mahjong/record/category.py:SubCategory", "mahjong/record/category.py:MixedCategory")
p("Tenhou tile numbers convert to tiles and back",
  "For every tile number 0..135, tile_from_tenhou(i) is a legal tile; for tiles that are not red, tile_to_tenhou_range(tile_from_tenhou(i)) is exactly the block of four numbers containing i; the four numbers of a block give == tiles and numbers of different blocks give different tiles; numbers >= 136 are rejected.",
  "all integers as tile numbers (accepted and rejected), all 34 kinds",
  "the rejected range is infinite, and block structure is a relation between all pairs of numbers",
  "mahjong/record/utils/value/tile.py:tile_from_tenhou", "mahjong/record/utils/value/tile.py:tile_to_tenhou_range")
p("TileSet operations are exact multiset operations",
  "For TileSets with counts: (a + b) has the sum of counts (positive part), (a - b) the truncated difference, (a & b) the minimum, (a | b) the maximum, contains is pointwise >=, exclude returns a - b exactly when contained and None otherwise, len is the number of tiles, re_sort keeps every count and leaves the keys strictly increasing; none of them changes the operands' counts.",
  "every pair of tile multisets of any size, with red fives as keys or not, with zero or negative counts where Python allows them",
  "quantifies over all multisets and key orders",
  "mahjong/container/set.py:TileSet")
p("Tile notation round-trips",
  "tile_set_from_string(str(s)) == s for every TileSet s of legal tiles, and tiles_from_string accepts any interleaving of groups such as '123m067p' and returns exactly the written tiles in order, ignoring malformed characters.",
  "every multiset of legal tiles; every input string",
  "string length and multiset size unbounded",
  "mahjong/container/utils.py:tiles_from_string", "mahjong/container/utils.py:tile_set_from_string", "mahjong/container/set.py:TileSet.__str__")
p("distinct yields each different item exactly once, in first-seen order",
  "distinct(items) yields a sub-sequence of items in which no two are equal and in which every item of the input occurs, keeping the first occurrence, for any item type whose < is a strict total order compatible with ==.",
  "every iterable and every totally ordered item type",
  "binary-insertion bookkeeping over arbitrary sequences",
  "mahjong/container/utils.py:distinct")
# ---------------------------------------------------------------- win patterns
p("NormalTypeWin.match decides 'contains m melds and p pairs'",
  "NormalTypeWin(p, m).match(hand) is True exactly when p pairs and m melds (runs of three consecutive suit tiles or three equal tiles) can be taken simultaneously from the hand.",
  "every hand (multiset of legal tiles, any size, red fives allowed) and every p, m",
  "existential over all decompositions of every hand; search pruning could lose a hand in a corner no test has",
  "mahjong/container/pattern/win.py:WinPattern.match", "mahjong/container/pattern/win.py:NormalTypeWin")
p("win_selections is sound",
  "Every selection yielded by win_selections(hand) consists of exactly p pairs and m melds (for UniquePairs: that many pairwise different pairs) whose tiles are all contained in the hand together.",
  "every hand and every pattern, every yielded selection",
  "all outputs for all inputs",
  "mahjong/container/pattern/win.py:WinPattern._win_selections")
p("unique_win_selections lists every way of winning exactly once",
  "For every hand, unique_win_selections yields, for each multiset of units that makes up a win inside the hand, exactly one selection equal to it, and nothing else.",
  "every hand, every decomposition",
  "completeness and duplicate-freeness of an enumeration over all hands",
  "mahjong/container/pattern/win.py:WinPattern.unique_win_selections", "mahjong/container/utils.py:distinct")
p("UniquePairs.match decides 'at least n different pairs'",
  "UniquePairs(n).match(hand) is True exactly when at least n different tile kinds occur at least twice in the hand (four equal tiles are one pair).",
  "every hand and every n",
  "existential over all hands",
  "mahjong/container/pattern/win.py:UniquePairs")
p("Matching is monotone and leaves the hand unchanged as a multiset",
  "Adding tiles to a hand never turns match from True to False, replacing a five by a red five never changes match, and match / win_selections leave the caller's hand with the same counts.",
  "every hand, every added multiset",
  "relational property over pairs of hands",
  "mahjong/container/pattern/win.py:WinPattern.win_selections")
# ---------------------------------------------------------------- waiting / shanten
p("BruteForceWaiting.before_waiting_step is the least number of missing tiles minus one",
  "If the hand already wins the result is -1; otherwise, when the call returns n, n + 1 is the least number of tiles that can be added, never exceeding four copies of a kind, so that the hand contains a win; it returns exactly when such a number exists.",
  "every hand and every pattern (ignore_4counts=True)",
  "least-number claim over all multisets of added tiles",
  "mahjong/container/pattern/reasoning.py:BruteForceWaiting.before_waiting_step")
p("PatternMatchWaiting.before_waiting_step is the least number of missing tiles minus one",
  "When the call returns n, some complete win using at most four copies of each kind lacks exactly n + 1 tiles from the hand and no such win lacks fewer; it returns exactly when a complete win with at most four copies of each kind exists.",
  "every hand and every pattern (ignore_4counts=True)",
  "optimality of a pruned search for all hands",
  "mahjong/container/pattern/reasoning.py:PatternMatchWaiting")
p("HeuristicPatternMatchWaiting.before_waiting_step is the least number of missing tiles minus one",
  "The stateful, pruned, stage-ordered search returns the least number of missing tiles minus one whenever that least number does not exceed the number of tiles in the hand, and raises ValueError otherwise.",
  "every hand, every pattern, every value left in the object by earlier calls",
  "optimality of a heuristic search with mutable pruning bound; 10 hands are tested",
  "mahjong/container/pattern/reasoning.py:HeuristicPatternMatchWaiting.before_waiting_step", "mahjong/container/pattern/reasoning.py:HeuristicPatternMatchWaiting._win_selections_in_tiles")
p("The three shanten algorithms agree",
  "On every hand with at most four copies of each kind for which they return, BruteForceWaiting, PatternMatchWaiting and HeuristicPatternMatchWaiting return the same before_waiting_step.",
  "every hand with at most four copies of each kind, every pattern",
  "equivalence of three programs on all inputs",
  "mahjong/container/pattern/reasoning.py")
p("Useful tiles are exactly the tiles that bring the hand one step closer",
  "For a hand that does not win yet, useful_tiles returns exactly the kinds t with fewer than four copies in the hand such that adding t lowers the waiting step; PatternMatchWaiting, HeuristicPatternMatchWaiting and BruteForceWaiting return the same set.",
  "every non-winning hand with at most four copies of each kind, every pattern",
  "set equality quantified over all hands and all tiles",
  "mahjong/container/pattern/reasoning.py:HeuristicPatternMatchWaiting.waiting_and_useful_tiles", "mahjong/container/pattern/reasoning.py:PatternMatchWaiting.waiting_and_useful_tiles", "mahjong/container/pattern/reasoning.py:BruteForceWaiting.useful_tiles")
p("Batch discard analysis equals discarding and re-analysing",
  "batch_waiting_and_useful_tiles(hand) yields a tile t exactly when t is in the hand and discarding it keeps the waiting step; the step it reports is the waiting step of the hand minus t, and the useful set is exactly the useful set of the hand minus t; each tile is yielded once; and whenever waiting_and_useful_tiles(hand minus t) succeeds it reports the same step and the same kinds.",
  "every hand for which the call succeeds (the step is found), every tile of the hand",
  "relates one search to one search per discard, for all hands",
  "mahjong/container/pattern/reasoning.py:HeuristicPatternMatchWaiting.batch_waiting_and_useful_tiles")
p("Shanten analysis never fails on a real hand",
  "For a hand with at most four copies of each kind and 3m+1 or more tiles (m melds still needed, m <= 4), HeuristicPatternMatchWaiting(NormalTypeWin(melds=m)) returns a number (no ValueError), between -1 and 2m; for UniquePairs() on 13 or 14 tiles it returns a number between -1 and 6.",
  "every legal concealed hand",
  "absence of an exception over an astronomically large set of hands",
  "mahjong/container/pattern/reasoning.py:HeuristicPatternMatchWaiting.before_waiting_step", "mahjong/tenhou_record_check.py:reasoning_discards")
p("One tile changes the waiting step by at most one",
  "Adding any tile to a hand lowers the reported waiting step by at most 1 and never raises it; removing a tile raises it by at most 1 and never lowers it.",
  "every hand and every tile for PatternMatchWaiting and HeuristicPatternMatchWaiting; for BruteForceWaiting every hand that has at most four copies of each kind before and after (a fifth copy can lower its answer by two)",
  "relational property over pairs of searches",
  "mahjong/container/pattern/reasoning.py")
p("A winning hand is reported as -1, except by PatternMatchWaiting.waiting_and_useful_tiles",
  "For a hand that contains a win, before_waiting_step of all three algorithms reports -1, and waiting_and_useful_tiles of BruteForceWaiting and HeuristicPatternMatchWaiting reports -1 with no useful tiles. PatternMatchWaiting.waiting_and_useful_tiles is the exception: it never reports -1 on any hand, so on a winning hand its step is wrong.",
  "every winning hand with at most four copies of each kind; for the exception, every hand",
  "the disagreement only shows on hands the suite does not try",
  "mahjong/container/pattern/reasoning.py:PatternMatchWaiting.waiting_and_useful_tiles")
p("Waiting analysis does not depend on red fives or insertion order",
  "Two hands with the same number of tiles of each kind get the same waiting step and the same set of useful kinds from every algorithm, whatever the insertion order and whichever fives are red, and the caller's hand keeps its counts.",
  "every pair of hands equal as multisets",
  "relational property over all orderings",
  "mahjong/container/pattern/reasoning.py", "mahjong/container/set.py:TileSet.re_sort")
p("ignore_4counts=False only lifts the four-copies limit, except in BruteForceWaiting",
  "Passing ignore_4counts=False to before_waiting_step of PatternMatchWaiting or HeuristicPatternMatchWaiting only lifts the four-copies limit: the result is the least number of missing tiles over all complete wins minus one, and the call returns, with a step not larger, whenever the default call does. waiting_and_useful_tiles(hand, False) of PatternMatchWaiting reports that step and exactly the kinds that a nearest such win lacks; that of HeuristicPatternMatchWaiting still reports the step with the limit, all kinds that a nearest win without the limit lacks, and only kinds lacking in a win no farther than the reported step. BruteForceWaiting is the exception: before_waiting_step(hand, False) never returns on a non-winning hand and useful_tiles(hand, False) is empty whenever it returns.",
  "every non-winning hand",
  "non-termination cannot be observed by a test",
  "mahjong/container/pattern/reasoning.py:BruteForceWaiting")
p("Wall sampling draws without replacement",
  "Whatever the random source returns, the tiles drawn by StaticWall(wall).sample(n) are, as a multiset, contained in the wall as long as n does not exceed the wall size, and picking a tile lowers exactly that tile's weight by one. A wall that is used up is not noticed: every further draw is 7z.",
  "every wall, every n, every sequence of random choices",
  "all outcomes of a random process",
  "mahjong/container/distribution.py:StaticWall", "mahjong/container/distribution.py:TileDistribution.sample")
# ---------------------------------------------------------------- bit fields / melds / game type
p("Bit-field descriptions decode and encode consistently",
  "For a description whose widths add up to 16, unpacking any value 0..65535 gives for each field the bits at its offset counted from the least significant bit in description order, packing the unpacked fields restores the value, and values outside 0..65535 are rejected.",
  "every description of total width 16 and every value",
  "all field layouts and all values",
  "mahjong/record/utils/bit.py")
p("Chi codes decode to the encoded run",
  "For every run (suit, start 1..7), copy choice for the three tiles, called position and source, decoding the Tenhou code yields exactly the called tile as borrowed and the two others as own tiles, and the source seat; the only chi codes rejected are those with run index 63.",
  "every chi code and every seat",
  "relation between an encoder and decoder over the full code space",
  "mahjong/record/utils/value/meld.py:Flush")
p("Pon and kan codes decode to the encoded set",
  "For every kind, unused copy, called position and source, a pon code decodes to the three other copies with the called one borrowed; an added-kan code yields the added copy; a kan code yields all four copies, borrowed empty for a concealed kan and the named copy otherwise; a kita code yields the named tile.",
  "every pon/added-kan/kan/kita code and every seat",
  "full code space",
  "mahjong/record/utils/value/meld.py:Triplet", "mahjong/record/utils/value/meld.py:TenhouAddedKan", "mahjong/record/utils/value/meld.py:TenhouKan", "mahjong/record/utils/value/meld.py:Kita")
p("Every decodable meld has disjoint own and borrowed tiles of the right number",
  "For every 16-bit code that meld_from accepts, own and borrowed tiles are disjoint, at most one tile is borrowed, the sizes are 2+1 (chi, pon), 4+0 or 3+1 (kan), 1+0 (added kan, kita), all tiles of a pon/kan are of one kind and the tiles of a chi are three consecutive ones of one suit; meld_type agrees with the class chosen by meld_from.",
  "every 16-bit code and seat",
  "all codes, including ones no record contains",
  "mahjong/record/utils/value/meld.py:meld_from", "mahjong/record/utils/value/meld.py:meld_type")
p("Game type equality and accessors depend only on the documented bits",
  "GameType(a) == GameType(b) exactly when a and b agree on bits 1..10; player_count is 3 or 4 and play_wind_count 1 or 2 according to their bits, main_game_count is their product, tips_count is 0, 2 or 5, and str() never fails.",
  "every pair of 16-bit codes",
  "all pairs of codes",
  "mahjong/record/utils/value/gametype.py:GameType")
# ---------------------------------------------------------------- event-sourced states
p("passed_events equals scanning every event",
  "For each of the game states (hand, melds, discards, dora indicators, invisible tiles, and any collection of them), passed_events(events) has the value obtained by scanning all events in order, although it decides which events to scan from the state it started in.",
  "every event sequence and every starting state",
  "all histories; key-event filter is evaluated on a stale state",
  "mahjong/record/state.py:GameState.passed_events", "mahjong/record/state.py:GameState.with_key_events", "mahjong/record/state.py:GameStateCollection")
p("Folding events is compositional",
  "passed_events over e1 + e2 equals passed_events over e1 followed by passed_events over e2, and the initial deal of a new game makes the value of every state independent of everything before it.",
  "every split of every event sequence",
  "all histories and all split points",
  "mahjong/record/state.py:GameState.passed_events", "mahjong/tenhou_record_check.py:game_reasoning")
p("PlayerHand tracks exactly the tiles a player holds",
  "After an initial deal and any sequence of events, the player's hand is the dealt tiles plus the player's draws minus the player's discards and the own tiles of the player's melds; other players' events never change it; for a consistent sequence the size is dealt + draws - discards - meld tiles.",
  "every event sequence, every player",
  "all histories",
  "mahjong/record/state.py:PlayerHand")
p("InvisibleTiles removes exactly the publicly shown tiles",
  "After a deal and any later events, the invisible tiles are the initial tile numbers minus the first dora indicator, later dora indicators, discarded tiles and own tiles of melds shown since the deal, with two exceptions that hold of the code: discarding tile number 0 does not remove it, and in a three-player game the initial numbers are only 36..135, the eight tiles of 1m and 9m being present as tuples that nothing ever removes. In a four-player game the initial numbers are all 136.",
  "every event sequence since a deal, 4 or 3 players",
  "all histories; the bad case needs one particular tile",
  "mahjong/record/state.py:InvisibleTiles")
p("PlayerMeld keeps one entry per meld and upgrades pons to kans",
  "The meld list after any events since the deal has one entry per chi/pon/kan/kita of that player in order; an added kan replaces the matching pon by a kan with that pon's borrowed tile and source and all four tiles, adds no entry, and leaves the other entries alone.",
  "every event sequence, every player",
  "all histories",
  "mahjong/record/state.py:PlayerMeld", "mahjong/record/utils/value/meld.py:KanFromTriplet")
p("DiscardTiles and DoraIndicators replay the record in order",
  "After any events since the deal, the discard list is that player's discards in order and the dora indicator list is the initial indicator followed by the later ones in order.",
  "every event sequence",
  "all histories",
  "mahjong/record/state.py:DiscardTiles", "mahjong/record/state.py:DoraIndicators")
# ---------------------------------------------------------------- record reading
p("StageGroupby partitions its input",
  "Concatenating the groups gives back the input, no group is empty, inside a group the keys pass through the listed stages in order (or are one repeated unlisted key), and a group ends only where the next key cannot continue the stage order; this holds however much of each group the consumer reads before asking for the next. (Resuming an old group after asking for a newer one takes an element away from the newer one; the theorems say so.)",
  "every input sequence, stage list and key function, every consumption schedule that reads from the newest group",
  "lazy iterator protocol: all interleavings of outer and inner consumption",
  "mahjong/record/stage.py:StageGroupby")
p("A record is split into one chunk per game",
  "For a record whose events start with a non-INIT event and contain no two adjacent INIT events, the head chunk is everything before the first INIT and each game chunk starts with its INIT and contains no other; all events are kept in order with increasing timestamps.",
  "every event list",
  "all record lengths and INIT positions",
  "mahjong/record/reader.py:TenhouRecord.__init__", "mahjong/record/stage.py:StageGroupby")
p("Final scores, points and ranks are consistent",
  "From the final 'owari' list score i is entry 2i and point i entry 2i+1; the ranks written by the converter are a permutation of 1..n in which a strictly higher score gets a strictly smaller rank and ties go to the lower seat, and the order printed by str(record) lists the players by exactly these ranks.",
  "every list of final scores (ties included), 3 or 4 players",
  "all score vectors; sort stability with ties",
  "mahjong/record/universe/tenhou/event_definition.py:game_finish", "mahjong/record/reader.py:TenhouRecord.__str__")
p("Log id and view URL are inverse",
  "log_id_from_url(log_id_to_url(id)) == id for every id made of URL-safe characters, extra query parameters before or after do not matter, and download_url only depends on the id.",
  "every id string, every list of extra parameters",
  "unbounded strings",
  "mahjong/record/reader.py:log_id_from_url", "mahjong/record/reader.py:log_id_to_url", "mahjong/record/reader.py:download_url")
p("Dora indicators map to the next tile, and the tile sets are complete",
  "doras(indicators) is the concatenation of the per-indicator doras; the dora of a suit tile is its successor (9 -> 1, red five -> 6, 4 -> 5 and red five), winds and dragons cycle; initial_tiles has 136 (or 108 for three players) entries with the stated number of red fives.",
  "every indicator list and every tile",
  "unbounded indicator lists",
  "mahjong/record/const.py:doras", "mahjong/record/const.py:initial_tiles")
# ---------------------------------------------------------------- universal command format
p("Command records round-trip",
  "GameCommand.from_record(cmd.to_record()) has the same property, update method, scope, event, timestamp and sub-scope, the same value and state for every non-string property, and produces the same record again; string properties come back as str() of what they were (None and numbers become texts), a digit-string sub-scope as a number; cells pandas has turned into NaN, bools or numbers read as the same values.",
  "every command (every property of every view, every update method, every JSON-able value, every sub-scope that is not a digit string)",
  "all values of a recursive data type, all strings",
  "mahjong/record/universe/command.py:GameCommand.to_record", "mahjong/record/universe/command.py:GameCommand.from_record", "mahjong/record/universe/property_manager.py")
p("TransferDict.set is a persistent update",
  "d[k1][k2].set(k, v) returns a root in which exactly the addressed entry is v and every other path reads as before, the original is unchanged, and further sets through the returned root see all earlier ones.",
  "every nested dictionary, every path, every sequence of sets",
  "all histories of updates on all trees; parent links are rebuilt on every set",
  "mahjong/record/universe/executor.py:TransferDict")
p("Executing commands and interpreting them give the same state",
  "For every command list in which game/record commands use the default sub-scope and player commands players 0-3, the k-th state yielded by GameExecutor.execute holds for every property the value GameInterpreter computes (and the translator stores in cmd.state) after the first k commands, plus the k-th timestamp; execution stops where interpretation stops, with the same exception, or at an assertion. No later command changes a state already yielded.",
  "every command sequence",
  "two state machines over all histories",
  "mahjong/record/universe/executor.py:GameExecutor.execute", "mahjong/record/universe/interpreter.py:GameInterpreter")
p("Strict execution fails exactly on a mismatched assertion",
  "GameExecutor(strict_mode=True) raises AssertionError at a command exactly when it is ASSERT_EQUAL_OR_SET on a property that already has a value not equal to it (as a multiset for tile lists); non-strict mode never raises it and both modes yield the same states up to that point.",
  "every command sequence",
  "all histories",
  "mahjong/record/universe/executor.py:GameExecutor.execute_update_state", "mahjong/record/universe/property_manager.py:tiles_equal")
p("Every property has exactly one type and the type table dispatches correctly",
  "Each property of each view resolves to exactly one registered ViewType; list-like properties default to [], index properties to 0, list-like REMOVE is multiset removal and every other ADD/REMOVE is + / -; asking for a default of any other type raises ValueError.",
  "every property of every view, every method, all argument values",
  "dispatch depends on flag containment and registration order",
  "mahjong/record/universe/format.py:View.type", "mahjong/record/universe/property_manager.py:lookup_func_table")
p("List removal removes exactly one occurrence per listed value",
  "REMOVE on a list property succeeds exactly when the removed values are contained with multiplicity, the result is the multiset difference, keeps the order of the rest, and ADD followed by REMOVE of the same values restores the multiset.",
  "every pair of lists",
  "all lists",
  "mahjong/record/universe/property_manager.py:remove_all")
p("Translating a record does not depend on earlier translations",
  "to_commands(record) gives the same commands, or the same exception, whatever was translated before in the process, finished, failed or abandoned. A to_command_records iterator made after any history and consumed without using another in between gives exactly that stream. (Interleaved iterators share one interpreter: starting a second one can make the first raise KeyError.)",
  "every history of earlier translations, every interleaving of iterators",
  "hidden global state; all schedules",
  "mahjong/record/universe/tenhou/__init__.py:to_command_iter", "mahjong/record/universe/translator.py:CommandTranslator")
p("The converted hand state equals the event-sourced hand",
  "For every record prefix that is consistent (tiles drawn are new, discarded and melded tiles are held), the 'hand' value stored in the commands of player p is, as a multiset of tile names, the names of PlayerHand's tiles for p after the same events.",
  "every consistent event sequence, every player",
  "equivalence of two independent interpreters over all histories",
  "mahjong/record/universe/tenhou/event_definition.py:hand_update", "mahjong/record/state.py:PlayerHand")
p("discard_from_hand tells tedashi from tsumogiri",
  "For every discard the appended discard_from_hand flag is False exactly when the discarded tile number is the one the player drew as their last hand change, True otherwise.",
  "every event sequence",
  "needs the remembered last draw over all histories",
  "mahjong/record/universe/tenhou/event_definition.py:discard_command", "mahjong/record/universe/tenhou/event_definition.py:hand_update")
p("Scores follow the record",
  "After a game end with score list sc, each player's score is sc[2p]*100 + sc[2p+1]*100; between a deal and the game's end the score of a player is a hundred times the dealt ten, less 1000 for every reach of theirs accepted (step 2); the score the next INIT asserts is the stored one exactly when its ten is sc[2p] + sc[2p+1]; and the sum of all scores after the end is a hundred times the sum of listed scores and changes.",
  "every score list, every player count",
  "all histories",
  "mahjong/record/universe/tenhou/event_definition.py:game_finish", "mahjong/record/universe/tenhou/event_definition.py:richii_command")
p("Win flags are per player",
  "After AGARI, is_win holds exactly for the winner, is_discard_lose_game exactly for the discarder of a ron, the yaku go to winner and discarder of a ron and to everybody on a tsumo, and is_self_win is the same for everybody: true exactly on a tsumo (so 'is_self_win implies is_win' is false). After RYUUKYOKU all three flags are false and there are no yaku. The yaku text is named entry by entry, so the han numbers standing between the yaku are named as if they were yaku.",
  "every winner/loser/player-count combination",
  "all combinations with NaN handling for draws",
  "mahjong/record/universe/tenhou/event_definition.py:game_finish")
p("Builder contexts nest like dynamic scopes",
  "Inside nested cmd.when(...) blocks the constructor sees for each keyword the innermost value, call-site keywords win over all blocks, and on leaving a block (normally or by exception) the visible keywords are exactly those before it.",
  "every well-nested program of when-blocks and calls",
  "all nesting structures",
  "mahjong/record/utils/builder.py")
p("Fixed melds mirror the player's melds",
  "The converted fixed_meld list has one entry, the names of its tiles, for every meld of the player since the deal except kitas, in order. So its length is the number of non-kita melds tracked by PlayerMeld plus the number of added kans (which PlayerMeld merges into their pon).",
  "every event sequence",
  "all histories",
  "mahjong/record/universe/tenhou/event_definition.py:open_hand", "mahjong/record/state.py:PlayerMeld")
# ---------------------------------------------------------------- checker
p("Merging win types keeps the best step and the union of its useful tiles",
  "reasoning_merge(list) reports the discard of the first item, the minimum waiting step of the list and exactly the union, each kind once, of the useful kinds of the items having that step, whatever the order and length of the list. It raises TypeError for the empty list and only for it.",
  "every non-empty list of reasonings",
  "fold over arbitrary lists",
  "mahjong/tenhou_record_check.py:reduce_useful", "mahjong/tenhou_record_check.py:reasoning_merge")
p("Useful tile counts count the unseen copies",
  "convert_to_reasoning's and reasoning_merge's useful_tiles_count is, for plain useful tiles of different kinds, the number of invisible tile numbers whose tile is one of the useful kinds. In a report this is so unless a five is useful of which the red one is in the hand. When a useful tile is written as a red five this is false: for it the code counts the copies of the tile before the first of its suit (5p counts 9m, 5s counts 9p, 5m counts nothing).",
  "every set of useful tiles and invisible numbers",
  "all sets",
  "mahjong/tenhou_record_check.py:convert_to_reasoning", "mahjong/record/utils/value/tile.py:tile_to_tenhou_range")
p("The expected discards are exactly the best ones",
  "The expected reasonings shown for a discard are exactly the merged reasonings minimal for (waiting step, -count), in stable order.",
  "every non-empty list of merged reasonings",
  "sort + groupby over arbitrary lists",
  "mahjong/tenhou_record_check.py:discard_reasoning", "mahjong/tenhou_record_check.py:reasoning_key")
p("Merged reasonings are the analyses of the discards that keep the step",
  "For a player with one to four melds the merged reasonings list exactly once every kind whose discard keeps the hand's waiting step, with that step and the kinds useful afterwards. For a concealed hand the normal-form and the seven-pairs lists are merged by position up to the shorter length, whatever their discards: every item is right, though items may be missing, if the hand is nearer to four melds and a pair than to seven pairs; otherwise there are hands whose expected discard is shown with useful tiles of the analysis of another discard.",
  "every hand, number of melds and set of invisible tiles",
  "needs a hand whose two analyses order or select discards differently",
  "mahjong/tenhou_record_check.py:discard_reasoning", "mahjong/container/pattern/reasoning.py:HeuristicPatternMatchWaiting.batch_waiting_and_useful_tiles")
p("Every discard of the player gets a report",
  "For a game of legal events starting with its deal, game_reason_list gives exactly one report per discard event of the player, in order, each computed from the hand, invisible tiles and melds before that discard, with somebody_richii true exactly when a REACH came before; the first report that fails makes the call raise its exception. With k melds and a hand of 14-3k different tiles a report fails exactly when the hand before the discard already wins (StopIteration, seen as RuntimeError) or the expected discards have no unseen useful tile (ZeroDivisionError).",
  "every event sequence and player",
  "all histories",
  "mahjong/tenhou_record_check.py:game_reasoning", "mahjong/tenhou_record_check.py:discard_reasoning")
p("n_c_r is the binomial coefficient",
  "n_c_r(n, r) is the float nearest to the binomial coefficient for all 0 <= r <= n, so it is the coefficient itself if that is at most 2**53, and n_a_r is the falling factorial. (n_c_r(61, 30) is not the coefficient.)",
  "all n, r",
  "unbounded integers",
  "mahjong/tenhou_record_check.py:n_c_r", "mahjong/tenhou_record_check.py:n_a_r")
p("Unicode tile symbols are correct and injective",
  "to_unicode_tile maps the 34 plain kinds injectively onto U+1F000..U+1F021 in the order winds, red-green-white dragons, man, sou, pin. (A red five is mapped to the symbol just before its suit.)",
  "all tiles",
  "table-wide bijection over a partial function",
  "mahjong/tenhou_record_check.py:to_unicode_tile")
p("The player's choice is analysed for the tile discarded",
  "The item a report shows as the player's choice has the step of the hand without the tile discarded (the least over the win types looked at) and, each kind once, exactly the kinds useful for a win type with that step.",
  "every hand, discard, melds and invisible tiles",
  "all hands and win types",
  "mahjong/tenhou_record_check.py:discard_reasoning", "mahjong/tenhou_record_check.py:reasoning_discards")
p("Wrong rates are between 0 and 1",
  "For a player with melds the wrong rate of a report is between 0 and 1, is 0 when the discard is among the expected ones, and is 0 for a discard keeping the step only then, unless a five is useful (or, for the last claim, discarded) of which the red one is in the hand. Without melds the same holds when the hand is nearer to four melds and a pair than to seven pairs and no item is missing. For every hand it is at most 1, and 1 exactly when no unseen tile is useful after the discard. For concealed hands the lower bound is false (rates below 0 occur), and with red fives equal discards are rated differently. For every hand the discard's step is that of the expected discards or one more. All rates are computed in floats.",
  "every hand, discard, melds and invisible tiles",
  "all hands; the counterexamples need the two analyses to disagree",
  "mahjong/tenhou_record_check.py:discard_reasoning")
p("Win-rate counters count won experiments",
  "In the win-rate tool the win count of a discard is the number of experiments in which the hand without that tile plus the drawn tiles contains four melds and a pair or seven pairs (so a rate is between 0 and 100 per cent); the total is the sum of the counts; the shared points of the discards add up to the number of experiments won by some discard; the drawn tiles never include more copies of a kind than are outside the hand as long as those suffice, and only 7z after that.",
  "every entered hand, number of draws, number of experiments and random source",
  "the result depends on random draws; no finite set of seeds covers it",
  "mahjong/win_rate_demo.py:main", "mahjong/container/distribution.py:StaticWall")
p("The transfer matrix of the win-rate tool",
  "The matrix of transfer rates is computed exactly when some experiment was won by some discard (otherwise the program stops with a division by zero); its entries are non-negative and every column sums to at most one, to exactly one only when no other discard won in any experiment; the rough pick rates are non-negative and sum to at most one.",
  "every entered hand and every outcome of the experiments",
  "depends on all combinations of won and lost experiments",
  "mahjong/win_rate_demo.py:main")
p("Successor and groups of a tile",
  "next() of a number tile below nine is the plain tile one higher in its suit (a red five counts as five) and None otherwise; pair() and triplet() are two and three copies; flush() is the tile and the next two of its suit, None for honours, eights and nines.",
  "all real tiles, red fives included",
  "all tiles and both tile classes",
  "mahjong/tile/definition.py:Tile", "mahjong/tile/definition.py:AkaTile")
p("Which handler translates an event",
  "Whatever handlers are registered with match_name, match_names, match_attr, match_both and default_event, the commands for an event are those of the first handler giving any, asked in the order: combinations, tag, attributes, defaults, each in registration order; no later handler is asked. A match_both handler is looked up with tag and attribute swapped. The Tenhou translator is an instance.",
  "all registration sequences, handlers (stateful or raising) and events",
  "handlers are arbitrary functions",
  "mahjong/record/universe/translator.py:CommandTranslator", "mahjong/record/universe/tenhou/xml_macher.py:TenhouCommandTranslator")
p("The table of a game",
  "to_paifu gives one row per draw, discard, meld, accepted riichi, win and drawn game, a row per player for a deal, in the order of the events, each carrying the code of its round; whoever reads only the table and adds what a player is dealt and draws and takes away what the player discards and shows has the names of exactly the tiles the player holds; a record ends with one score row per player.",
  "all consistent games of any length, all players, all orders of Python's sets",
  "games are arbitrarily long and hands depend on the whole history",
  "mahjong/record/utils/event.py:TenhouEvent.to_paifu", "mahjong/record/reader.py:TenhouGame.to_paifu", "mahjong/record/reader.py:TenhouRecord.to_paifu")
p("Codes and titles of rounds",
  "Round number 4w+k of a game is written with the letter (or character) of wind w, k+1 and the repeats, for every wind up to one more than the game type plays and raises beyond; different rounds get different codes and titles; the title lists how the game ended: winner and points, winner, loser and points, or the reason it was drawn.",
  "all game types, round numbers, repeat counts, players and endings",
  "round numbers and repeats are unbounded",
  "mahjong/record/reader.py:TenhouGame.__str__", "mahjong/record/reader.py:TenhouGame.to_paifu", "mahjong/record/reader.py:TenhouGame.end_stringify")
p("Dropping and flattening nested states",
  "drop of a missing key raises KeyError; otherwise nothing is left at or below the dropped place, every path not leading through it reads as before and the dictionaries on the way remain. flatten has exactly one entry per value of a nested dictionary, under the full path of keys, written in the way of its property or as JSON. So the row of every state an executor yields has exactly the timestamp of its command and one entry for each property the commands so far have given a value.",
  "all nested dictionaries and key paths, all command lists and all positions in them",
  "nesting depth, key sets and command histories are unbounded",
  "mahjong/record/universe/executor.py:TransferDict", "mahjong/record/universe/executor.py:GameExecutor", "mahjong/record/universe/property_manager.py:PropertyTypeManager")
p("The tables of a record",
  "Every command made of a record whose events name players 0 to 3 is about an existing property, carries the state its predecessors lead to, and survives writing as a record and reading back, except that a player's rate becomes text. parse_dataframe_from_tenhou_record fails only if the translation does, and its two tables have one row per command: the k-th row of the state table shows the state and the timestamp of the k-th command. An event naming another player is translated but has no tables.",
  "all lists of events naming only players 0 to 3, all positions in the command list",
  "records are unbounded and each command's state depends on the whole history",
  "mahjong/record/util_functions.py:parse_dataframe_from_tenhou_record", "mahjong/record/universe/command.py:GameCommand", "mahjong/record/universe/executor.py:GameExecutor")
p("The table of the events",
  "The rows about the i-th event of a record are: for a tag of letters and digits the digits, the letters and then the attributes in order (nothing when numbered tags are left out); for any other tag the tag and the attributes. Rows come in the order of the events. With numbered tags kept, different records have different tables.",
  "all lists of XML elements with distinct attribute names and no newline in tags, both settings of the option",
  "tags, attributes and the number of events are unbounded",
  "mahjong/record/util_functions.py:_event_df_iter")
p("Raw commands and cleaned tables",
  "A command read back from its raw record is the same command, unless its sub scope is a text of digits, which becomes a number. A raw record names the scope of its property. Cleaning the table written for a record, with any columns added, gives the raw table of that record with those columns beside it; only the rates of players have become texts.",
  "all commands; all lists of events naming players 0 to 3, all added columns",
  "properties, values, numbers of rows and columns are unbounded",
  "mahjong/record/universe/command.py:to_raw_record", "mahjong/record/universe/command.py:from_raw_record", "mahjong/record/universe/command.py:clean")
p("Reports: whom, which file, which page",
  "At the prompt the number of a player, with or without zeros in front, picks that player, and any other text all players in order. A run makes one page per planned player in order, with one section per game holding that game's title and that player's reports, and stops at the first page that cannot be made, leaving the files before it. A file is named after the record's id, the player's name and seat: different reports of a record have different files, and so have different records whose ids have no underscore. The checker picks the player at the given position, counted from the end if negative, and cannot make a file for a record given as an object.",
  "all texts typed, urls, records, players, names and positions",
  "the typed text, names, ids and the number of games are unbounded",
  "mahjong/tenhou_record_check.py:main", "mahjong/tenhou_record_check.py:render_template", "mahjong/record/checker.py:TenhouChecker.parse")
p("Every tile shown has a picture",
  "The 37 names in the page's tile list are different and are those of the picture files. Every tile a report shows (hand, melds, discards, useful tiles) is one of them. The hand shown has the hand's kinds in order of suit and number, and is the hand itself when it has no red five; with red fives it can show a plain five instead.",
  "all hands and melds of tile numbers 0 to 135, all sets of unseen tiles, all iteration orders",
  "hands, melds and orders of iteration are unbounded in number",
  "mahjong/tenhou_record_check.py:render_template", "mahjong/tenhou_record_check.py:norm", "mahjong/templates/mjpic")
p("The players of a record",
  "Player k of a record has number k, the name in attribute n0 to n3 of the first UN element and entry k of its lists of levels, ratings and sexes; there are three or four players, as the game type says, unless one of these lists is shorter.",
  "all records that can be read",
  "the texts and the number of events before the element are unbounded",
  "mahjong/record/reader.py:TenhouRecord", "mahjong/record/reader.py:TenhouPlayer")
p("The reports of a game played by the rules",
  "Take a game in which the player is dealt 13 different tiles, draws only tiles not held, discards and melds only tiles held, and discards only with one tile more than after the deal (counting melds as three). Then at every discard the report is made from exactly 14 - 3k different tiles for k melds, with the discarded tile among them. Asking for the game's reports gives one per discard, or RuntimeError if the player discards from a hand that has already won, or ZeroDivisionError; nothing else can happen. Every tile shown in the reports has a picture.",
  "all games with a readable deal and readable moves, by three or four players, for every player who keeps to the rules; all iteration orders",
  "the number and order of moves is unbounded",
  "mahjong/tenhou_record_check.py:game_reason_list", "mahjong/tenhou_record_check.py:game_reasoning", "mahjong/record/state.py:PlayerHand", "mahjong/record/state.py:PlayerMeld")
p("Event descriptions say what happened",
  "The description of an event names the player and the tile of a draw or discard, the new dora indicator, the player, kind, tiles (in tile notation, the same number of every kind as in the meld) and source of a call, the player of a riichi, the winner, points and loser of a win, the reason of a drawn game, and is UNPARSED for everything else. Descriptions of draws and discards tell the kind of move, the player and the name of the tile apart.",
  "all events, tile numbers, players, meld codes and set iteration orders",
  "There are 136 tiles, four players, 65536 meld codes and arbitrary set orders; and that two different moves never get the same text is a statement about all pairs.",
  "mahjong/record/utils/event.py:TenhouEvent.base_str", "mahjong/record/utils/event.py:TenhouEvent.__repr__", "mahjong/record/utils/value/meld.py:Meld.__str__")
p("The step is the number of turns a player needs",
  "If the heuristic analysis of a hand (at most four of a kind) says step n, then no play, whatever is drawn and discarded, holds a winning hand with fewer than n + 1 draws; and if n is not negative and the hand is as large as a winning hand less one tile, there are n turns of drawing a tile still in the game and discarding one after which a tile still in the game completes a win. The two other analyses give a number with the same meaning. The useful tiles of a hand of step 0 are exactly the tiles it wins with. Whoever draws a useful tile and discards one of the proposed tiles has a hand of the same size and step n - 1, and a discard is always proposed.",
  "all win patterns, hands, tile draws and sequences of plays of any length",
  "Plays are unbounded sequences of draws and discards; tests compare numbers for single hands.",
  "mahjong/container/pattern/reasoning.py:HeuristicPatternMatchWaiting", "mahjong/container/pattern/reasoning.py:PatternMatchWaiting", "mahjong/container/pattern/reasoning.py:BruteForceWaiting", "mahjong/container/pattern/win.py:NormalTypeWin", "mahjong/container/pattern/win.py:UniquePairs")
p("The distance to distinct pairs has a closed form",
  "For the pattern of p different pairs (seven pairs: p = 7) the step of a hand is p - 1 less the number of kinds held at least twice, plus the kinds missing when fewer than p different kinds are held; pairs beyond p do not count. All three analyses give this number (the heuristic one unless the hand has too few tiles for the search to end), and the useful tiles are the kinds held once, while fewer than p pairs are held, and the kinds not held, while fewer than p different kinds are held.",
  "all p up to 34 and all hands",
  "The space of hands is unbounded for tests; agreement of three search procedures with one formula is a claim about all of them.",
  "mahjong/container/pattern/reasoning.py:HeuristicPatternMatchWaiting", "mahjong/container/pattern/reasoning.py:PatternMatchWaiting", "mahjong/container/pattern/reasoning.py:BruteForceWaiting", "mahjong/container/pattern/win.py:UniquePairs")
p("What counts as a draw or a discard",
  "An element of a record is a draw (a discard) of tile n exactly if its tag is one of the four draw (discard) letters followed by the decimal number n and nothing else but perhaps a newline. How the number is written makes no difference: the event constructor, the description, the rows of the record table and the commands of the translator treat zeros in front, a newline or attributes like the plain element. An element with any other unknown tag is described as unknown, has no rows, gives no commands and changes no state; in strict mode the translator raises a ValueError. A player's own hand in the game state, however, also moves at tags where something follows the number.",
  "all tags (texts), attributes, players, tile numbers, translator states and modes",
  "The tags are all texts; five functions use three regular expressions, and tests only feed well-formed tags.",
  "mahjong/record/utils/constant.py:DRAW_ALL_REGEX", "mahjong/record/utils/event.py:tile_change", "mahjong/record/utils/event.py:draw_value", "mahjong/record/player.py:TenhouPlayer", "mahjong/record/universe/tenhou/event_definition.py:tile_change_tenhou")
p("An event changes only what it is about",
  "Translating an event changes only properties its kind is about and gives no other commands: a draw the hand, a discard the hand, discards and turn count, a call the hand and melds, a reach the riichi state and the score, and so on. A property therefore keeps its value through any sequence of events not about it. A draw, discard, call, reach or disconnection of one player changes no other player's properties and nothing of the game or record, and a win changes no hand but the winner's.",
  "all events, translator states, properties, players and sequences of events of any length",
  "That nothing else changes ranges over all properties and all earlier states; tests look at the changed ones.",
  "mahjong/record/universe/tenhou/event_definition.py:game_init_command", "mahjong/record/universe/tenhou/event_definition.py:game_finish", "mahjong/record/universe/tenhou/event_definition.py:discard_command", "mahjong/record/universe/translator.py:CommandTranslator")
p("Riichi and connection in the converted state",
  "In the converted state of a record, a player is in riichi from the element in which they declare it until the next deal, and at no other time; a player is disconnected exactly as the last element about their connection says (BYE of that player, or an UN element naming them), whatever other elements come between.",
  "every record, translated strictly or not, from every context; every player; any events after the deal",
  "The flags depend on the whole history of a record; a test follows a few records and cannot show that no other event, order or player touches the flag.",
  "mahjong/record/universe/tenhou/event_definition.py:richii_command", "mahjong/record/universe/tenhou/event_definition.py:disconnected_command", "mahjong/record/universe/tenhou/event_definition.py:set_player_command", "mahjong/record/universe/tenhou/event_definition.py:game_init_command")
p("The header of a round in the converted state",
  "From a deal to the next one, the converted state names the wind and the number of the round as its number in the record says (4 rounds to a wind), the number of repeats, 1000 points for every stick on the table, as dealer exactly the player the element names, and as dora indicators the tile of the deal followed by every indicator turned over since, in order. A round of a wind more than one beyond those the type of the record plays cannot be converted.",
  "every record with a type of 16 bits and any events between; every round number, wind, dealer and seat; three or four players",
  "The header is computed from the type given at the start of the record and kept through all later events; a test checks single rounds of single records.",
  "mahjong/record/universe/tenhou/event_definition.py:game_init_command", "mahjong/record/universe/tenhou/event_definition.py:set_oya_command_yield", "mahjong/record/universe/tenhou/event_definition.py:dora_command", "mahjong/record/universe/tenhou/event_definition.py:game_type_command", "mahjong/record/category.py:SubCategory")
p("The header of a record in the converted state",
  "An element GO with any 16-bit type is converted, and the state then gives the number of players and winds, the rules and the level of the table as its bits say, and the tiles in use: every tile as often as it is in the set for that number of players and red fives. SHUFFLE gives the seed. UN gives every player it names the name, the title of the rank and the rating listed at the seat, keeps rank and rating where none are listed, and changes nothing about players it does not name.",
  "all 65536 types; every UN element that converts; every seat",
  "The combinations of type bits and of present and missing attributes cannot be enumerated together with every earlier state.",
  "mahjong/record/universe/tenhou/event_definition.py:game_type_command", "mahjong/record/universe/tenhou/event_definition.py:set_player_command", "mahjong/record/universe/tenhou/event_definition.py:shuffle_command", "mahjong/record/utils/constant.py:RANKS")
p("Results in the converted state",
  "After the last round of a record the state gives every player a hundred times the final score listed, the final points listed and the place (one plus the number of players ahead); no other event changes these. After a win the round is not one that nobody won, after a drawn round it is, with the reason the element names (an exhausted wall if it names none); an unknown reason cannot be converted.",
  "every win or drawn round that converts, every list of final scores with whole scores, every number of players and seat",
  "Which events carry final results, and the ranking under ties, must hold for all score lists and histories.",
  "mahjong/record/universe/tenhou/event_definition.py:game_finish", "mahjong/record/universe/tenhou/event_definition.py:no_win_command", "mahjong/record/universe/tenhou/event_definition.py:agari_command")
p("Numbers in a record are read exactly",
  "A text in an attribute is read as a number exactly if it is a decimal number, with or without sign, decimal point, exponent, white space around it and underscores between digits, and the number read has exactly the value written; a text of infinity raises OverflowError and anything else (also nan) raises ValueError. Where a whole number is expected (a player, a tile, a meld) the same holds without point and exponent, and anything else raises ValueError. The same value is read as the same number however it is written (7, +7, 7.0), and a whole value is a whole number. A comma separated attribute is read entry by entry, in order.",
  "every text (digits 0 to 9), every comma separated list of texts of any length",
  "There are infinitely many texts; a test tries a few spellings, and a misplaced decimal or a dropped sign shows up only in some.",
  "mahjong/record/utils/value/general.py:number_list")
p("Strict conversion refuses exactly the records with an event that says nothing",
  "If every event of a record is of a known name (the eleven named elements, a draw or a discard) and says something (a riichi of step 1 or 2, an UN that names somebody), strict and lenient conversion give the same commands or the same exception. If some event says nothing, strict conversion raises ValueError, and lenient conversion gives the commands of the record without it. An element of unknown name never makes lenient conversion raise.",
  "every record, every place and content of the events, every state the converter was left in by earlier records",
  "Any event of any record may be the silent one, and everything after it depends on the state it leaves; a test has one unknown element in one place.",
  "mahjong/record/universe/translator.py:CommandTranslator.__call__", "mahjong/record/universe/translator.py:CommandTranslator.fallback_call", "mahjong/record/universe/tenhou/__init__.py:to_commands")
p("Which commands an event gives, and in which order",
  "Every command made of an event is about one of the properties of its kind, updates it in the way of its kind (a draw adds to the hand, a call removes from it, a deal replaces it, ...), names the kind of event (game_init, draw, new_dora, record_finish, ...) and carries the number of the event. The commands of a record come in the order of its events, and an event has commands exactly if it says something.",
  "every record, every event and content, every state",
  "The kind and the update of a command are fixed per handler, but whether a handler that depends on attributes, players and states ever gives another needs all of them.",
  "mahjong/record/universe/tenhou/event_definition.py:game_finish", "mahjong/record/universe/translator.py:default_event_type", "mahjong/record/universe/tenhou/xml_macher.py:TenhouCommandTranslator.postprocess")
p("The table of states of a record can be read back",
  "When the table of states of a record is written to a file and read with GameExecutor.read_clean_csv, every column has its three keys (scope, player, property) again, there is a column for every property that ever has a value, and its cell in every row is the value the property has after that command, None where it has none. Different keys never share a label, and a label naming an unknown class or property raises KeyError.",
  "every sequence of record events whose players are 0 to 3, every table pandas may make of the texts (text, truth value, number or missing), every row and column, every label",
  "Reading depends on the labels of all keys and on every value a record can give a property; tests read one file back without comparing it.",
  "mahjong/record/universe/executor.py:GameExecutor.read_clean_csv", "mahjong/record/universe/executor.py:replace_enum_values", "mahjong/record/universe/executor.py:state_series_apply")
p("Open tiles and where every tile of a player is",
  "After a deal and any events of the game, the converted meld_public_tiles of a player are the tiles they laid down from their own hand for calls, kans and norths since the deal, in order, and bonus_tiles are their norths. At any point before the end of the game, if the events convert without an exception, the hand, the discards and the open tiles of a player together are exactly the tiles dealt to them and drawn by them: no tile is lost or made up.",
  "every context with any number of players, every player, every deal, every sequence of draws, discards, calls, norths, new dora indicators and other events, sensible or not, that converts",
  "the tiles move between four lists by separate commands over a whole game; a test sees single games, while an error shows only for some calls (added kans, norths) or some orders of events",
  "mahjong/record/universe/tenhou/event_definition.py:open_hand", "mahjong/record/universe/tenhou/event_definition.py:discard_command", "mahjong/record/universe/tenhou/event_definition.py:hand_update", "mahjong/record/universe/property_manager.py:remove_all")
p("Player names are shown as they were before encoding",
  "The name of a player, in a read record and in the converted state, is the text whose percent-encoding the record contains: any character may be written as its UTF-8 bytes, in small or capital hexadecimal digits, or be left as it is. Different names are never shown alike, unless the bytes are not text. Bytes that are not text never make a wrong character: where there is none, the longest beginning of a character, or else one byte, is shown as one U+FFFD.",
  "every name and every way to percent-encode it, every record, every player",
  "There are infinitely many names and, for each, many encodings; one, two, three and four byte characters, stray percent signs and mixed runs follow different paths.",
  "mahjong/record/player.py:TenhouPlayer.__init__", "mahjong/record/universe/tenhou/event_definition.py:set_player_command", "mahjong/record/reader.py:TenhouRecord.__init__")
p("Nothing in a record can become markup of the page",
  "The HTML page of the record checker is well formed, its tags come from a fixed list whatever the names, titles and the url are, the paragraphs show the texts of player and record character by character, and its only link leads to the given url.",
  "every page the checker makes: every player, record, url, every list of games and reports, all texts with any characters",
  "Names come from strangers and may contain any characters; a test tries a few, and sees only that a page is made, not what a browser makes of it.",
  "mahjong/templates/record_checker_template.html", "mahjong/tenhou_record_check.py:template_env", "mahjong/tenhou_record_check.py:render_template")
p("The page shows the reports",
  "Reading the page gives, for every game of the record in order, its title and one row per report of the player, counted from 1, with the melds and the hand, the choice, the expected choices, their steps and numbers of tiles, all choices in order, and a colour that tells whether somebody had called riichi and how wrong the choice was. A page is made exactly if the texts of player and record exist, the pictures can be read and every report has an expected choice, which all reports of the checker have.",
  "every page: any number of games, reports, choices, melds and tiles",
  "The page is built by nested loops in a template that no test looks into; a wrong variable in one cell shows only by reading the page back.",
  "mahjong/templates/record_checker_template.html", "mahjong/tenhou_record_check.py:render_template", "mahjong/tenhou_record_check.py:game_reason_list")
p("Texts of players and records, and the pictures",
  "The text of a player is the name, the title of the rank and the rating with two decimals; the text of a record is the game type and, by place, each player's place, name and points with one decimal. Numbers are shown exactly if they have no more decimals and fewer than 52 bits, and are otherwise at most half a unit of the last place off the float nearest to them. The style sheet has for every tile a rule with exactly the bytes of its picture.",
  "every player, with ranks -21 to 20 (other ranks raise IndexError), every record with any number of players, every decimal number, every picture file",
  "Rounding, signs, ties in the standing and base64 padding depend on values tests do not cover.",
  "mahjong/record/player.py:TenhouPlayer.__str__", "mahjong/record/reader.py:TenhouRecord.__str__", "mahjong/tenhou_record_check.py:load_raw", "mahjong/tenhou_record_check.py:template_env")
p("Numbers of a record survive floating point",
  "number_list reads a number of at most 15 digits as an int if it is whole and otherwise as the float nearest to it, so two such numbers compare (<, ==) as the numbers written do; a hundred times such a number is exact if it is whole and is otherwise off by at most its 2**51th part (0.29 * 100 is not 29).",
  "every text of a decimal number, every pair of them; every rational for the rounding itself",
  "rounding errors appear for particular decimals only; order and distinctness are claims about all pairs",
  "mahjong/record/utils/value/general.py:number_list", "mahjong/record/reader.py:TenhouRecord.to_paifu", "mahjong/record/universe/tenhou/event_definition.py")
p("What the page says about a discard is true of the game",
  "In the page made from a record, the section of a game has one row for every discard of the player, in order. Its hand holds the tiles the player then holds, its choice is the tile discarded, the expected and actual steps are the waiting steps of the hand and of what is left of it, the actual number of tiles is the number of unseen tiles that lower the step, and its colour is 1 minus the share of useful tiles kept, up to rounding. For a player with a called meld, the expected choices are the kinds that keep the step and leave the most useful tiles, the list below has all discards that keep the step, best first, with their useful kinds, and the rate is from 0 to 1 and 0 for an expected choice. For a player without melds the same holds if the hand is nearer to four melds and a pair than to seven pairs and no more discards keep its step than keep that of seven pairs; with more of them, only as many are compared as keep the step of seven pairs.",
  "every record whose page is made, every game of it played by the rules, every discard of the player, any number of games, moves and discards; the numbers of tiles and the advice for hands to which no five is useful of which the red one is held, red fives or not",
  "It is a claim about every game and composes event parsing, state tracking, hand analysis, merging and the template; a test sees a page for one record and cannot tell whether the numbers are right.",
  "mahjong/tenhou_record_check.py:render_template", "mahjong/tenhou_record_check.py:game_reasoning", "mahjong/tenhou_record_check.py:discard_reasoning", "mahjong/templates/record_checker_template.html", "mahjong/record/state.py")
p("The file of a record, read again, gives its commands",
  "The CSV file written for a record, or for any table of commands, can be read as a table of commands, and gives the same commands in the same order: same property, update method, event, timestamp and player, same value and state for every property that is not a text, and the same text for texts that pandas can only take for texts. Commas, quotes and ends of line in names do no harm. A record that cannot be translated raises its exception and no file is written. Texts such as NA are read as nan, and a carriage return breaks the file where lines end without one.",
  "every record with players 0 to 3, every list of storable commands of any length, both ends of line, and every way in which pandas may guess the types of the cells",
  "The names are free text and pandas guesses types from whole columns; only a statement over all texts and all guesses rules out a file that cannot be read back.",
  "mahjong/universe_paifu_convert.py:main", "mahjong/record/universe/command.py:read_clean_csv", "mahjong/record/universe/command.py:pandas_columns_clean", "mahjong/record/universe/tenhou/__init__.py:to_command_records")
p("The events a player has chosen are exactly the player's discards, calls and wins",
  "For every player and every event of a played game: the player's draw and discard predicates give the tile of that player's own draws and discards and nothing for other events; the call, reach and win predicates hold exactly for the calls, reaches and wins that name the player; the choices of a player are the player's discards, calls and wins, not draws, reaches or the moves of others. A reach, call or win that names nobody raises KeyError, and one that names a player by a text that is no number ValueError.",
  "all players 0 to 3 and all legal events: draws, discards, melds with any code, deals, dora indicators and all other elements",
  "Event tags overlap in their first letters (D in DORA and in a discard of player 0), and there are 4 x 136 draw tags, 4 x 136 discard tags, all meld codes and all other tags; a test covers a few.",
  "mahjong/record/player.py:TenhouPlayer.is_draw", "mahjong/record/player.py:TenhouPlayer.is_discard", "mahjong/record/player.py:TenhouPlayer.is_open_hand", "mahjong/record/player.py:TenhouPlayer.is_player_choice")
p("The text of a record is read and written without loss",
  "The reader accepts exactly the texts of well-formed documents (an optional declaration, elements, attributes in either quotes, character references, white space), every text has one reading, and the record is made of the tags and attributes of the children of the root in their order: declaration, white space, kind of quotes and the way a character is written make no difference. No element of a document has an attribute twice, and no attribute has a character that documents must not have. The XML text in str(event) is plain ASCII and is read back as the same element whatever characters its attributes have; a record written as the site writes it is the record of the events written.",
  "All texts, all elements with any number of attributes and children, all characters",
  "The layouts and contents of documents are unbounded; a test parses a few files of the site, which all look the same",
  "mahjong/record/reader.py:from_url", "mahjong/record/reader.py:from_file", "mahjong/record/utils/event.py:TenhouEvent.__str__")
p("The events of a file become a table with the id of the log",
  "light_dataframe_from_file gives, for a file with the text of a document, the rows of the children of its root: index, tag (split into letters and number), attributes in document order; every row has the log id, which is the name of the file without directory and extension, whatever dots and directories the path has. With numbered tags kept, two files with the same rows have the same events.",
  "All documents, all paths",
  "Documents and paths are unbounded; tests use one file name",
  "mahjong/record/util_functions.py:light_dataframe_from_file", "mahjong/record/util_functions.py:_event_df_iter")
p("Values handed out earlier are never changed by what comes later",
  "A list may be shared: the value of a command becomes the state as it is, and one list can be the state of several players. Whatever commands are interpreted or executed afterwards, the values given to earlier commands as state, the earlier contents of the interpreter, the states the executor has yielded and the values of the commands themselves still read what they read when they were made, and a run on shared lists gives the same values and the same exception as a run on copies. The same holds for the game states yielded while events are read: their hands, meld lists, discards, indicators and invisible tiles are not changed by later events, although a hand that did not change is the same object in the next state and the set of invisible tiles of a new deal is changed in place.",
  "every heap of lists built from existing lists, every sharing between them, every list of commands, every state to start from, both modes of the executor; every state or collection of states and every list of events",
  "a later in-place change shows only in values kept from earlier steps, for the one sharing and the one later command that touches the shared object; tests look at the value just returned",
  "mahjong/record/universe/interpreter.py: GameInterpreter.interpret, execute_new_value", "mahjong/record/universe/property_manager.py: remove_all, add_general, prop_manager.default_value", "mahjong/record/universe/executor.py: GameExecutor.execute", "mahjong/record/universe/translator.py: CommandTranslator.postprocess", "mahjong/record/state.py: GameState.with_events, InvisibleTiles.scan")
p("A converted record can be replayed from its file",
  "Converting the text of a record with paifu-extract gives a CSV file that read_clean_csv reads and GameExecutor replays without an exception. After every command the replayed state has the same timestamp and the same value of every property that is no text as executing the commands of the record directly. For a deal and legal moves after it, the last replayed state with a timestamp up to the last move shows for every player the tiles they hold, have discarded and have laid open, and their points.",
  "every document that holds a record whose players sit at the table and that can be converted, every deal and play in it up to any move before the end of the game, every number of players, both line ends, every type inference of pandas allowed by C97",
  "the property composes parsing, translation, CSV quoting, type inference and replay; a test replays a few records and cannot show that no record has a value that is changed or an update that fails after reading back",
  "mahjong/universe_paifu_convert.py:main", "mahjong/record/universe/command.py:GameCommand.read_clean_csv", "mahjong/record/universe/executor.py:GameExecutor.execute", "mahjong/record/universe/tenhou/__init__.py:to_commands", "mahjong/record/reader.py:from_file")
p("Every regular record is converted",
  "A record that begins with its settings and goes on with rounds, each a deal, moves in which players give only tiles they hold, and an end, is converted to commands without an error, whatever was converted before, and in strict mode too unless an element says nothing. If it also names its players, ends every round and ends with the final scores, its text is built into a record, written to a file, and the file is read and replayed without an error. A discard of a tile that is not held is an error.",
  "all records of any number of rounds, moves and players' actions, with three or four players, all ways a round ends, all elements of unknown name in between, and all earlier uses of the converter",
  "tests convert some downloaded records; that no regular record makes one of the many checks, lookups and assertions on the way fail is a statement about all of them",
  "mahjong/record/universe/tenhou/__init__.py:to_commands", "mahjong/record/universe/tenhou/event_definition.py", "mahjong/record/universe/interpreter.py:GameInterpreter", "mahjong/record/reader.py:TenhouRecord")
p("From the text of a complete record to the page of a player",
  "Take any text of a document whose elements are those of a complete record, and a player of it who keeps to the rules of taking and discarding tiles in every round. The record is read and the player found. Then the checker makes a page with one section per round, in order, and one right row per discard; or it stops with RuntimeError, and the player discarded from a hand that had already won; or it stops with ZeroDivisionError, and the player discarded from a hand that had not, which, if no five is useful of which the red one is held and it is open or concealed with every discard compared, left no unseen useful tile whatever is discarded without raising the waiting step. Conversely the page is made if the player discards only from such hands, not yet won, while something useful is left, and it is not made if the player discards from a hand that has won, or from a hand with nothing useful left, no such five being useful, that is open or nearer to four melds and a pair than to seven pairs. (A concealed hand has every discard compared if it is nearer to four melds and a pair, and no more discards keep its waiting step than keep the one for seven pairs; other discards get lost between the two ways to win, see C57.)",
  "all document texts of complete records, all numbers of rounds, players, moves, iteration orders of sets and pictures",
  "Records, hands and orders of sets are unbounded; tests look at a few downloaded records, and none of them has a discard from a won hand.",
  "mahjong/record/reader.py:from_url", "mahjong/tenhou_record_check.py:render_template", "mahjong/tenhou_record_check.py:game_reason_list", "mahjong/record/reader.py:TenhouGame.__str__", "mahjong/templates/record_checker_template.html")
p("The win-rate program asks until it has a hand and reports every discard",
  "The win-rate program answers every text that does not write exactly 14 tiles with the number of tiles it writes and asks again. Given a hand of 14 tiles, a number of draws and a number of experiments above zero (1000 if the answer is blank), it runs that many experiments of that many draws, none of which takes more copies of a tile than the hand leaves as long as the wall suffices; after that it draws only 7z. If some discard wins in one of them it prints the hand and the number of draws and then one line for each kind of tile in the hand, the highest accurate rate first and equal ones in the order of the hand, with the number of experiments this discard wins, its percentage, and the rough and accurate rates in percent, each with two decimals and within half a hundredth and the error of the floats. If no discard wins in any of them, it prints nothing more and ends with ZeroDivisionError, as it does for zero experiments or fewer; a draw count or experiment count that is no number ends it with ValueError.",
  "all lists of typed lines, hands, numbers of draws and experiments, random numbers, and all rates that numpy may compute",
  "Hands, experiments and random numbers are unbounded; the program has no tests and its output depends on chance.",
  "mahjong/win_rate_demo.py:main", "mahjong/container/utils.py:tile_set_from_string")
p("Rounding does not distort the win-rate experiment",
  "Computed in floats, the counts of wins are exact; after n experiments (up to 2^50) the share of every discard, and the points every losing discard concedes to another, differ from the exact ones by a factor of at most (n+1)/2^52, are zero exactly when the exact ones are, and no share exceeds the wins. The transfer matrix is computed, or divides by zero, exactly when the exact one does; each of its entries is at least zero and within (6n+100)/2^53 of the exact entry, and every column adds up to at most 1 + (204n+3400)/2^53.",
  "all hands, all numbers of experiments up to 2^50 and all tiles drawn in them",
  "Rounding errors depend on the whole history of experiments, which is random and unbounded; a test sees a few sums.",
  "mahjong/win_rate_demo.py:main")
p("Analysing a hand changes nothing but the order of its entries",
  "match, win_selections, before_waiting_step, useful_tiles, waiting_and_useful_tiles and batch_waiting_and_useful_tiles change no object that existed before the call except the hand, and of the hand only the order of its entries: every other tile set, the pairs, runs and triplets shared by all tiles and the shared list of all tiles are as before, also when the caller stops reading selections half way; and the answer is the one the analysis would give if every copy() were of a value.",
  "every hand, every pattern, every collection of other objects, every point at which the caller stops reading win_selections",
  "an object changed by mistake shows only in a later call that happens to share it; tests would have to compare every object after every call",
  "mahjong/container/pattern/win.py:WinPattern", "mahjong/container/pattern/reasoning.py", "mahjong/container/set.py:TileSet", "mahjong/tile/definition.py:Tile.pair")

p("Comparing tile sets is comparing them in dictionary order, and sorted ones are ordered totally",
  "TileSet < TileSet compares the entries in stored order like words in a dictionary (suit, then number, then how many), it is irreflexive and transitive, and two sets neither of which is < the other store the same entries in the same order; == means the same tiles in whatever order; after re_sort exactly one of ==, < and > holds; > is < the other way round, <= and >= are refused with TypeError; sorting a list of sets keeps all of them and leaves none behind one that it comes before.",
  "all tile sets, in any stored order, with any counts and red fives; all lists of tile sets",
  "the order decides which decompositions count as the same; a non-transitive comparison makes sorted() silently wrong only for some lists",
  "mahjong/container/set.py:TileSet.__lt__", "mahjong/container/set.py:TileSet.re_sort", "mahjong/container/pattern/win.py:WinPattern.unique_win_selections")

p("A state can only be emptied in place, and that does not reach other states",
  "On a state or any dictionary in it, assigning to a key, deleting a key or an attribute, pop, popitem and update raise TypeError and change nothing. clear() is not refused: it empties that dictionary of that state, which later readers of the same state see, and no other place of the state; and a state made from it by set keeps all its entries, and emptying a dictionary of the new state leaves the old one as it was; emptying any dictionary of one state yielded by an executor leaves all its other states as they were.",
  "all states and all dictionaries in them, all arguments of the calls, all writes by set in between",
  "sharing between states shows only if a test empties one and looks at all of another; there are as many places as paths in a state",
  "mahjong/record/universe/executor.py:TransferDict._readonly", "mahjong/record/universe/executor.py:TransferDict.__getattr__", "mahjong/record/universe/executor.py:TransferDict.set")

p("Generators that share a builder leave it clean, and disturb each other only if their blocks cross",
  "Several generators hold one Builder and stop at yields inside with blocks of it. Whatever the order in which they run on, once all of them have left all their blocks the builder has the keywords it had before. As long as whoever leaves a block has entered the youngest open one, every command is built with its own keywords over those of the open blocks. When blocks cross, a command is built with the keywords of a block that has been left and not with those of the block it is in.",
  "all numbers of generators, all schedules, all keywords, all builders in use already",
  "which generator runs next is up to the consumer; the wrong keywords show only for some interleavings",
  "mahjong/record/utils/builder.py:Builder", "mahjong/record/utils/builder.py:ContextStacker", "mahjong/record/universe/tenhou/event_definition.py:discard_command")

if __name__ == "__main__":
    out = os.path.join(os.path.dirname(os.path.abspath(__file__)), "..", "properties.jsonl")
    with open(out, "w") as f:
        for x in P:
            f.write(json.dumps(x, ensure_ascii=False) + "\n")
    print(len(P))
