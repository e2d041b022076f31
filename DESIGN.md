# Formal model of Ledenel/auto-white-reimu in Lean 4

## 1. Trusted base

* **Lean 4.33.0's kernel**, and Mathlib as installed (`/app/mathlib4-4.33.0`; single modules imported).
* **Axioms.** No axioms of our own, no `sorry`/`admit`, no `native_decide`, no `bv_decide`, no `implemented_by`, no
  `unsafe`. Every theorem listed in `MANIFEST.json` depends on a subset of `propext`, `Classical.choice`, `Quot.sound`;
  the exact set per theorem, as printed by `#print axioms`, is in `AXIOMS.md` (regenerated by `tools/axioms.py`).
* **The model is faithful to the code.** Nothing checks this mechanically. Each definition in `lean/Verif/Model` cites
  the file and lines it models, mirrors them branch by branch, and says where it simplifies. Section 3 lists what is and
  is not modelled.
* **The specification files** `lean/Verif/Spec/*` say what the English properties mean. They are short and do not use the
  model's algorithms (they use its data types: a tile, an event, a command).
* Complete finite tables (the 136 tile numbers, the 38 command properties, the 65536 game types through their bits, ...)
  are closed with `decide`/`decide +kernel` and lifted by a lemma to the statement over all inputs. Nothing is a sample.

## 2. Layout

* `lean/Verif/Py/*`     - the pieces of Python the code rests on (ordered dict / `Counter`, floor division, `sorted`, `int()`,
  `str()`, `split`, regular expressions used, `urllib.parse.unquote`).
* `lean/Verif/Model/*`  - the model, function by function; every definition cites `/repo` file and lines.
* `lean/Verif/Spec/*`   - small, model-independent specifications (kinds, units, decompositions, deficits, moves, ...).
* `lean/Verif/Proofs/*` - helper lemmas.
* `lean/Verif/Props/*`  - the property theorems `Cnn_*`, one file per area, with non-vacuity examples beside them.
* `lean/Verif/Conform/*` - the repository's own tests, computed on the model (section 7). No property rests on them.
* `properties.jsonl`, `MANIFEST.json` - generated by `tools/props.py`, `tools/manifest.py` from `tools/props.py`, `tools/claims.py`
  and the theorem names in `Props`.
* `seeded/LOG.jsonl`    - the wrong programs the theorems were tested against (section 6).

Conventions. Exceptions are values (`Except PyErr`), the kind of exception is kept. Generators are lists, or explicit state
machines where laziness is the property (C36, C47). Mutation is state passing; object identity is an explicit id where it
matters (C01) and a "changed" flag where it does not (C30). Unbounded `count()` loops take fuel, and the theorems say "for every
sufficiently large fuel the answer is .." or "for no fuel is there an answer". Randomness and unordered iteration (sets) are
arbitrary parameters. Floats are rationals rounded by `roundDouble` (53 bits, ties to
even; no overflow, underflow, infinities or signed zeros) in `n_c_r`, the wrong rates, the random choice of a tile, the numbers shown on
the page, `number_list` (`Model/FloatNumber.lean`) and the win-rate experiment (`Model/WinRateFloat.lean`). C63 and C64 are about
the exact shares and the exact matrix, and C106 bounds how far the floats are from them. The numbers of a record as values are exact
decimals; C95 shows that their values and order do not change by rounding.

## 3. What is modelled

| file in /repo/mahjong | model | left out |
|---|---|---|
| `tile/definition.py` | `Tile.lean`, `TilePool.lean` | type hints |
| `container/set.py` | `Tile.lean`, `Notation.lean`, `SetOrder.lean` | `Counter` methods the code does not use |
| `container/utils.py` | `Notation.lean`, `Distinct.lean` | - (the regular expression is a hand-written scanner, proved equal to the maximal-munch reading) |
| `container/distribution.py` | `Wall.lean` | the random generator (an arbitrary sequence of fractions) |
| `container/pattern/win.py` | `Win.lean`, `SetStore.lean` (objects) | `__str__`/`__repr__` |
| `container/pattern/reasoning.py` | `Reasoning.lean`, `SetStore.lean` (objects) | logging; evaluation order inside lazily produced sets (only their contents are returned) |
| `record/category.py` | `Category.lean` | captions and names (never read by the index functions) |
| `record/stage.py` | `Stage.lean` | - |
| `record/reader.py` | `Record.lean`, `Url.lean`, `Paifu.lean`, `Document.lean` (with `Py/Xml.lean`) | the HTTP download; XML beyond elements, attributes, references and white space |
| `record/player.py` | `Event.lean`, `Paifu.lean` | - |
| `record/state.py` | `State.lean` | - |
| `record/const.py`, `record/utils/constant.py` | `Const.lean`, `Event.lean`, `Paifu.lean` | texts only used for display |
| `record/utils/bit.py`, `utils/value/*.py` | `Bits.lean`, `Meld.lean`, `GameType.lean`, `Category.lean`, `Event.lean` | the external `bitstruct` package beyond the layouts used |
| `record/utils/event.py` | `Event.lean`, `Paifu.lean`, `Describe.lean`, `Document.lean` | `TenhouSubEvent` (no behaviour); white space that `ET.tostring` writes behind an element |
| `record/utils/builder.py` | `Builder.lean`, `BuilderShared.lean` | - |
| `record/universe/format.py`, `property_manager.py` | `Format.lean`, `Value.lean`, `Json.lean` | JSON dictionaries and exponents (no property has such values) |
| `record/universe/command.py` | `Command.lean`, `Frame.lean`, `CsvFile.lean` | the type inference of pandas (a parameter, see C97) |
| `record/universe/interpreter.py`, `executor.py` | `Command.lean`, `Executor.lean`, `DictStore.lean`, `DictCalls.lean` (objects and parent links), `Frame.lean`, `StateCsv.lean` | pandas data frames and files |
| `record/universe/translator.py`, `tenhou/*.py` | `Translate.lean`, `Dispatch.lean` | logging |
| `record/util_functions.py` | `Frame.lean` | pandas data frames, the ElementTree parser |
| `tenhou_record_check.py`, `record/checker.py`, `templates/record_checker_template.html` | `Checker.lean`, `Frontend.lean`, `PageText.lean` | the jinja2 compiler (the template is written out as jinja2 renders it), console input/output, packaging |
| `win_rate_demo.py` | `WinRate.lean`, `WinRateFloat.lean`, `Demo.lean` | numpy's eigenvectors (a parameter), the prompts, the lines about progress and time, `pause` |
| `universe_paifu_convert.py` | `CsvFile.lean` | download, console |

Not expressible in a model: HTTP, ElementTree, the jinja2 compiler, the internals of pandas, numpy eigenvectors, logging, CPython memory behaviour,
wall-clock time.

## 4. Plan per property (what is modelled -> how it is proved)

* C01: `Tile.__new__` with `_TILE_POOL` as a state machine (object ids) -> invariant over all call histories; collision witness outside 0..9.
* C02: tiles with `_tuple_view` -> order/equivalence laws; hash coherence.
* C03: `SubCategory`, `MixedCategory` with Python `%`,`//`, bisect -> mixed-radix induction, also for the open category (first size -1); counterexample for heterogeneous tails.
* C04: `tile_from_tenhou`, `tile_to_tenhou_range` -> arithmetic from C03.
* C05: `Counter`/`TileSet` as ordered association lists -> pointwise count lemmas.
* C06: regex scanner and `_gen_str_iter` over character lists -> induction.
* C07: `distinct` with `bisect_left` -> invariant "unique is sorted".
* C08-C12: `win.py` search branch by branch -> soundness/completeness against `Spec` decompositions (exchange argument).
* C13-C23: `reasoning.py` (three searches) -> least-deficit characterisation; relational corollaries.
* C24: `StaticWall.sample` with an arbitrary oracle -> invariant over draws; the search in weights that are all zero ends at the last tile.
* C25-C29: bit fields, melds, game types -> arithmetic on `Nat` codes.
* C30-C35: `state.py` scans as functions on events; object identity as "no change" flag -> fold lemmas.
* C36-C37: `StageGroupby` as a lazy iterator state machine -> partition theorem for every consumption schedule.
* C38: owari slicing, rank computation, stable reverse sort.
* C39: query-string parsing over character lists.
* C40: the constant tables.
* C41-C46: universe command format: types, property manager, JSON text, executor, interpreter, list updates.
* C42, C43 also with objects: `TransferDict`s refer to parents and children by index; the constructor and `set` refine the values of `TD`, and the old store is a prefix of the new one.
* C47-C53: translator and Tenhou event definitions -> simulation between moves of a game and the interpreter's state.
* C54-C62: the checker's pure functions on top of the search model; the whole `game_reason_list` loop.
* C63-C64: the win-rate experiment: counters as functions of the drawn hands, the transfer matrix over the rationals.
* C65: successor, pair, triplet, flush of a tile.
* C66: handler registration and dispatch with arbitrary handlers.
* C67-C68: `to_paifu` rows and titles -> a reader of the table simulates the hand state.
* C69: `TransferDict.drop`, `flatten` -> induction on trees; the executor's invariant gives its rows.
* C70: `parse_dataframe_from_tenhou_record` -> translated commands carry the interpreter's states; the executor agrees with the interpreter.
* C71: `_event_df_iter` -> the rows determine the events.
* C72: `to_raw_record`, `from_raw_record`, `clean`, `parse_raw...` -> by cases on the record; on top of C70's round trip.
* C73: `main`, `render_template`, `TenhouChecker.parse` -> digit strings are numbers with zeros in front; induction over the players.
* C74: the texts in a report -> every tile made is a real tile; the 37 names by a complete table.
* C75: `TenhouRecord.__init__` -> `zip` of the lists by induction.
* C76: `game_reason_list` over a whole game -> a count of tiles beyond three per meld is an invariant; then C58 and C74 at every discard.
* C77: `base_str` by kind of event; the tile notation of a meld is read back with C06; `__repr__` always raises.
* C78: plays as inductive relations (`Spec/Play.lean`) -> the deficit falls by at most one per draw; a play of the stated length is built from a best decomposition.
* C79: the least deficit over all choices of p kinds in closed form; then C14, C15 and C17.
* C80: the three regular expressions characterised as 'letter and number' (`Spec/Tags.lean`); then every reader by cases.
* C81: a table of properties per tag (`Spec/Effects.lean`); every handler's commands lie within it; views of different properties differ.
* C82: what declares, leaves and enters is in `Spec/Values.lean`; every event keeps, sets or resets the flag; induction over the events.
* C83: the context after `GO` (number of players, round categories, C03, C29) is kept by events other than `GO`; the commands of a deal
  in full; the last command about a property decides it; C81 for the events after the deal.
* C84: the commands of `GO` in full from C29 and C40; `UN` player by player.
* C85: the commands of a round's end in full; C38 for the places; C81 for other events.
* C86: `worth` gives a number of the model its rational value; `WritesNum` (Spec/Number.lean) says which texts write
  a rational in plain decimal, `NumberText` adds exponents, white space around the number and underscores between digits,
  `InfinityText` are the spellings of infinity. `parseNum` is proved to agree with them in both directions, `pyInt` with
  `IntText`, the normal form to be unique;
  lists follow by induction. `C45_add_number`, `C45_remove_number`, `C38_smaller` and `C38_hundred` say that the
  arithmetic and the order on numbers are those of the rationals.
* C87: `Silent` (Spec/Strict.lean) says which events say nothing; every handler gives commands otherwise (a record has three or
  four players, an invariant); induction over the events.
* C88: a table of phrases per tag (`Spec/Vocabulary.lean`); every handler's commands are among them; induction over the events with C87.
* C89: labels are `str(key)` and are split again at the dot; `TableOf` is any table pandas may make of the rows; the rows are those of C69/C70, the cells by the JSON round trip of C41.
* C90: `gen_open` gives the commands of a move about the two lists; `KeptSim` is the invariant that hand, discards and open tiles are the tiles got, kept by every command because removing a missing tile raises.
* C91: `PercentEncodes` is any percent-encoding; a character's bytes decode to it by arithmetic in each of the length ranges, runs of ASCII characters by induction on the length. `DecodesTo` says what any other text is decoded to (`C91_every`): the states of the decoder are the unfinished beginnings of characters.
* C92: `Spec/Html.lean` is a small reader of pages (characters, tags, elements). The page is read back to front: every piece of the
  template is a tag or text without markup, and escaped text reads as itself; so the trees of the page are known, and their tags.
* C93: looking up cells, rows and games in these trees gives what `Spec/Page.lean` asks for; induction over items, rows and games.
  The template text was also compared with an independent rendering of the file (a throw-away script that expands the template as
  text): both gave the same bytes for a page with two games.
* C94: rounding is bounded in integers and carried to the rationals; `base64Bytes` is an independent decoder, inverse by arithmetic.
* C95: `roundDouble` is nearest among all `m * 2 ^ e` with `|m| <= 2 ^ 53` (by cases on the binade); decimals with at most 15 digits
  are further apart than two rounding errors, so they stay apart and in order.
* C96: `Spec/WholeRow.lean` says what a row should say with sets of tile numbers (held, unseen) and `IsStep`; C93_page, C58_number, C32, C33,
  C34, C57_open, C57_lower, C62_right and C74 are composed, and lists are turned into cardinalities of sets.
* C97: `csv.writer` and the tokenizer of `read_csv` are in `Py/Csv.lean`; the tokenizer undoes the writer for all rows (induction over the
  text). What pandas makes of the texts is any function with `PandasReads`: each cell separately missing, text, truth value or number.
* C98: the predicates of `TenhouPlayer` on the moves of `Spec/Moves.lean`: cases on the move, and the first letter of a tag tells it apart.
* C99: `Py/Xml.lean` is a scanner with fuel, `Spec/Xml.lean` a grammar given as inductive relations; the scanner accepts a text for an
  element exactly when the grammar relates them (both directions by induction on the fuel). What `ET.tostring` writes is derived in the grammar.
* C100: C71 for the events of a parsed document, whose hypotheses C99 proves for every document; the log id by splitting the reversed path.
* C101: `Model/Heap.lean` runs the interpreter, the executor and the game states on a heap of list and set objects (references, in-place
  `list.remove` and `-=`). `Holds`/`Shown` read objects through; each operation is proved to refine the one on values and to leave the
  old cells alone, then induction over commands or events. Lists may not contain themselves (`Built`).
* C102: no new model; `Proofs/Replay.lean` composes C97 (the file is read as the commands), C70 (the commands get through the executor)
  and C43 (states and interpreter agree): the two lists of commands differ in texts and in the stored states only, and no update of
  another property reads a text.  `C102_table` adds C99 (text to events), C37 (events numbered) and C32, C48, C49, C50, C90 (what the
  interpreter holds after a deal), so it speaks of the text of a record and of the replayed states and nothing in between.
* C103: no new model; `Spec/Regular.lean` says what a regular and a complete record look like, element by element.  `Proofs/Regular.lean`
  to `Regular4.lean` carry an invariant through the record: who plays and which winds (from `GO`), every value of the kind its property has,
  and, once a deal was seen, the properties moves change being set.  Under it each element is converted without an error; discards and
  melds need that the tiles are in the hand, which C32's simulation gives for the part of the round already converted.  The record is built
  because its chunks are the rounds (C37 and that such cuts are unique).
* C104: no new model; `Spec/Pages.lean` says what a right page is and when nothing useful is left.  `Proofs/Pages.lean` shows that a
  complete record has the players its type says and a title for every round, and when the report on a discard from an open hand,
  or from a concealed one nearer to four melds and a pair, divides by zero; `Props/Pages.lean` composes this with C99, C103, C76, C93, C94 and C96.  The instance is a record of one round with
  four kans, from the text of the site to the row of the page.
* C105: `Model/Demo.lean` is the dialogue and the report of `win_rate_demo.py` as a function of the lines typed, the random numbers
  and what numpy makes of the matrix.  Typed hands are entered hands (`Proofs/Demo.lean`), so C63 and C64 apply; the order is a
  stable sort and the percentages are within half a hundredth and the rounding of doubles.
* C106: `Model/WinRateFloat.lean` rounds every result of the experiment.  `Proofs/Near.lean` counts roundings as factors between
  `1 - 2^-53` and its inverse, which add up under sums, products and quotients; the subtraction from one is bounded absolutely.
* C107 (and the parts of C05, C12, C22 about the caller's hand): `Model/SetStore.lean` writes `win.py` and `reasoning.py` once more, on a
  list of objects: `copy()` appends an object, `re_sort`, `del`, `subtract`, `update` and `remove` replace one, the units of a tile and
  the list of all tiles are shared objects.  `Proofs/SetStore*.lean`: by induction on the recursion, the old objects are a prefix of the
  objects at every yield and at the end, and the yields are those of the model on values.  Not modelled: what a consumer does between two
  yields (it is done afterwards; all consumers here only make new objects), and the texts made for `logging.debug`, which are not
  made unless that level is switched on (making one would sort a shared unit, which is sorted already).
* C109: `Model/DictCalls.lean` adds the calls that change a dictionary in place to the objects of `DictStore.lean`.  A new root has a higher
  number than all older objects (induction on `set` and the constructor), and an object only refers to higher numbers, so old and new
  states, and any two states an executor yields, have no object in common.
* C110: `Model/BuilderShared.lean` runs a schedule of enter, leave and call steps of several generators on one stack; the steps carry
  who does them, which the code does not look at.  `Spec/BuilderShared.lean` keeps the open blocks with their owners.  By induction on the
  schedule: the stack is as deep as there are open blocks, and is the open blocks if they nest.
* C108: `<` of `Tile.lean` against dictionary order over the stored entries (`Spec/SetOrder.lean`), by induction on both lists; totality of
  sorted sets because a sorted list without repeated kinds is determined by its members; `Model/SetOrder.lean` has the other operators.

## 5. Where the code departs from what one would expect

These are theorems (usually with a concrete witness) or hypotheses spelled out in the statement.

* C01: outside 0..9 different tiles can share one object; red fives are created anew until the pool is hit by `0`-hash, i.e. are not interned.
* C03: `MixedCategory` needs blocks that agree in the trailing sizes.
* C04: negative tile numbers are accepted as honours; `tile_to_tenhou_range` of a red five is wrong.
* C21: `PatternMatchWaiting.waiting_and_useful_tiles` never returns -1 for a won hand.
* C23: with `ignore_4counts=False` the brute-force search never returns for some hands.
* C28: the tile number in a kita code is not range-checked.
* C33: `InvisibleTiles` ignores the discard of tile number 0, and the three-player tuples are never removed.
* C36: resuming an older group of `StageGroupby` steals elements of the newer one.
* C41: text values are not read back (a text property written through the default functions).
* C47/C48: two interleaved translation iterators share one interpreter.
* C51: `is_self_win` is the same for everybody; han numbers are named as yaku.
* C53: an added kan is counted twice in `fixed_meld`.
* C55/C60: red fives are counted/shown as another kind.
* C24: a wall that is used up goes on giving `7z` (`C24_overdrawn`; `random.choices` of Python 3.7 accepts weights that are all
  zero), so the win-rate program (C63, C105) counts such draws instead of refusing the number typed.
* C57: for concealed hands the per-discard results of the two win types are merged by position; a machine-checked hand mixes two discards.
  `C57_lower`: this does no harm, except that items can be missing, while the hand is nearer to four melds and a pair than to seven pairs.
* C58: `game_reason_list` raises for an already won hand, or divides by zero.
* C59: `n_c_r` outside `0 <= r <= n`; above `2 ** 53` it is rounded (`C59_rounded`: `n_c_r(61, 30)`).
* C62: the wrong rate can be negative (concealed hands, red fives).
* C64: columns of the transfer matrix need not sum to one; nothing won divides by zero.
* C66: `match_both` registers `(attr, name)` but looks up `(name, attr)`.
* C67: a score of 0 is written `000`/`0000`; `"PENG "` has a trailing space; the `DORA` event row holds `Tile` objects, the deal's row
  text; a `REACH` without step 1 or 2 gives no row.
* C70: a player's rate (a text-typed property given a number) comes back from its record as text; an event naming a player
  outside 0..3 is translated, but the executor raises ValueError.
* C73: `TenhouChecker.parse(record object, i, generate_filename=True)` always raises (no url and no id); ids with `_` can share a
  file name; `isdigit` accepts digits such as `²` for which `int` raises (not modelled).
* C74: a plain and a red five of a suit in one hand are shown as two of whichever comes first.
* C77: `repr` of an event always raises a `TypeError` (a format with two places is given one value, `event.py:102`).
* C80: the hand of a player in the game state takes `D12x` for a discard of tile 12 (`player.py:36-49` match a prefix), everything else ignores it.
* C84: a negative rank number in `UN` is taken from the end of the list of titles (`RANKS[-1]` is the highest).
* C89: a text property without a value is read from a table of states as the text `nan`, not as `None`.
* Names whose percent-encoded bytes are not UTF-8 are shown with U+FFFD in place of the bytes, so different names can look alike (`C91_not_text`).
* The reports for the single win types are never attached, because the generator is already exhausted (`remaining := []` in `Checker.lean`).
* C92: a page made from a record object, without a url, has a link to `None` (`C92_link`). The url typed by the user is put into the
  link as it is: a `javascript:` url stays one, only its characters are escaped.
* C93: the lists "Normal-Type Reasoning" and "Seven-Pair Reasoning" of every row are empty (`C93_page`): the generator they are
  filled from has been used up by the merged list.
* C95: a hundred times a score that is not whole is rounded: `0.29` gives `28.999999999999996` (`C95_product_inexact`).
* C97: a text such as `NA`, `null` or `None` (a player's name) is read back from the file as the text `nan` (`C97_missing_name`); where lines
  end with a line feed alone, a carriage return in a text breaks the file in Python before 3.13 (`C97_carriage_return`).
* C94: ranks -21 to -1 are not errors, they take the titles from the end of the list (`C94_player` covers -21 to 20).
* C109: a state can be emptied in place by `clear()`, which `__getattr__` passes on to the dictionary inside (`C109_clear_empties`); all the
  other writing calls are refused, with TypeError because `raise NotImplemented` raises something that is not an exception.
* C110: when two generators share a builder and their blocks cross, `__exit__` pops the other one's keywords (`C110_crossed`).  No handler
  of the repository shares its builder.
* C108: two tile sets can be `==` and `<` at once if they store their tiles in different orders (`C108_unsorted`). `<=` and `>=` raise
  TypeError in spite of `@total_ordering` (`C108_operators`): `dict` already has these operators, so the decorator adds none.

## 6. Wrong programs

`seeded/LOG.jsonl` has one line per wrong program: the edited definition of the model, the edit, the claim it breaks, the theorems
that no longer prove, and the theorems that were tightened because of it. Edits are applied in a scratch copy and rebuilt; a
proof that stops compiling is replaced by `sorry` there so that all theorems depending on the edited definition are tried.
Lines with an empty `theorems_failed` are edits that leave the claims true (the line says why) or were answered by a new theorem.

## 7. Checking the model against the repository's tests

The code was not run, so that the model agrees with it rests on reading. What the repository itself says about the code's answers are
its tests. `Conform/*` restates their expectations on the model, and the kernel computes them. These are tests of the model, not
proofs of properties, and no claim of `MANIFEST.json` counts them.

* `Conform/Algo`, `AlgoUseful`, `AlgoPattern`: `tests/algo`. Not in the build, because the kernel needs 3 GB or more for each: the useful
  tiles of the fifth hand of `test_heuristic_pattern_waiting.py`, the third hand (steps and useful tiles) and the useful tiles of the second
  of `test_pattern_waiting.py`, the useful tiles of `test_waiting.py`. The kernel accepted the first three
  in a scratch file outside the build. It ran out of memory on the last, for which there is only an evaluation (`#eval`) that agrees. `test_batch_convert` would accept an empty answer; the theorem also asks for all twelve discards.
* `Conform/Tests`: `tests/tile`, `tests/utils`, `tests/paifu/test_flush.py`, `test_gameType.py`. Left out: the assertion of `AkaTile` for
  other numbers than zero, and the field names of the named tuples, which are not modelled. The first `test_stage_group_key` is
  shadowed by the second in the test file and never runs.
* `Conform/RecordA` to `RecordF`, `Records` (texts generated by `tools/records.py` from `tests/*.xml`): all six records are converted
  strictly, the numbers of rows of `tests/paifu/test_paifu.py` are met, and a verified checker (`Proofs/CompleteCheck.lean`) finds that
  they are complete records whose players keep to the rules. So the hypotheses of C103 and C104 are met by every real record
  in the repository, for every player (`test_records_complete`), not only by games made up for the purpose.
* Not restated: tests that need the network (`test_checker.py`, `test_tenhouRecord.py`) and those of CSV files through pandas.
