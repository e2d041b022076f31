CLAIMS = {
 "C01": ("proved", "Interning over every history of in-range calls; counterexample history outside the range is C01_out_of_range_history; red fives are never interned (C01_aka_not_interned)."),
 "C02": ("proved", "Equivalence, strict total order, hash coherence, red five."),
 "C07": ("proved", "Snoc characterisation determines the output; generic in == and <."),
 "C08": ("proved", "match iff p pairs and m runs/triplets fit in the hand."),
 "C09": ("proved", "Soundness of every yielded selection."),
 "C10": ("proved", "Exactly-once enumeration of all ways to win."),
 "C11": ("proved", "match iff at least n kinds occur twice."),
 "C13": ("proved", "Returns n iff n+1 is least; returns iff reachable; -1 on wins."),
 "C14": ("proved", "Returns n iff n is the waiting step; returns iff a feasible win exists."),
 "C15": ("proved", "For every leftover state; ok and ValueError characterised exactly."),
 "C16": ("proved", "Agreement on hands with at most four copies of a kind."),
 "C17": ("proved", "Exact useful sets for the three classes, and when they return."),
 "C18": ("proved", "Exact batch result, both against the specification and against re-analysis through the API."),
 "C19": ("proved", "Constructive bound 2m for m melds, 6 for seven pairs."),
 "C20": ("proved", "Both directions, all three algorithms."),
 "C21": ("proved", "Positive part and the exception, with a witness hand."),
 "C23": ("proved", "Positive part and the exception; useful tiles with the limit lifted for the two pattern-matching algorithms."),
 "C03": ("proved", 'Sub categories, bounded or open, and mixed categories of any shape; counterexample when trailing sizes differ.'),
 "C04": ("proved", 'All 136 numbers by a complete table, all other integers by proof (negatives are accepted as honours).'),
 "C06": ("proved", 'Parser equals a character-wise specification for every text; round trip for every tile set.'),
 "C25": ("proved", 'Any 16-bit layout; the parsed description texts equal the layouts used.'),
 "C26": ("proved", 'Every run code decodes to the run; every other chi code is rejected.'),
 "C27": ("proved", 'All pon/kan/added-kan/kita codes.'),
 "C28": ("proved", "All codes; a kita's tile number is not range-checked (shown)."),
 "C29": ("proved", 'All 16-bit codes; exact str() text.'),
 "C30": ("proved", 'Every state including nested collections, every event list, exceptions included.'),
 "C31": ("proved", 'Every split; every deal.'),
 "C32": ("proved", 'Every sequence of legal moves; size for consistent games.'),
 "C33": ("proved", "Statement includes the two ways in which the code departs from 'publicly shown tiles': tile number 0 and three-player tuples."),
 "C34": ("proved", 'Every sequence of legal moves since a deal.'),
 "C35": ("proved", 'Every sequence of legal moves since a deal.'),
 "C36": ("proved", 'Every schedule that reads from the newest group sees the unique valid maximal partition; C36_stale_group_steals is the counterexample for resuming an old group.'),
 "C37": ("proved", 'Chunks of every event list meeting the stated condition, and what a built record keeps.'),
 "C39": ("proved", 'urlparse/parse_qs modelled for the query part; percent decoding and the ; separator are parameters of the theorems.'),
 "C40": ("proved", 'Full table of indicators, all other texts raise; copies of every tile.'),
 "C41": ("proved", 'JSON writer and reader modelled for nested lists, texts with escapes and surrogate pairs, integers and decimals; exponent notation, dictionaries and the CSV file format are not.'),
 "C44": ("proved", "Mismatch is stated with the interpreter's state, independent of the executor."),
 "C45": ("proved", 'Complete table of the 38 properties, all values.'),
 "C46": ("proved", "Counts up to Python's ==, order kept, exact failure condition."),
 "C47": ("proved", 'Every history of calls and iterators, with any context left behind by a failed call; interleaving counterexample.'),
 "C48": ("proved", "Every consistent sequence of legal moves after a deal, any earlier context; states compared before the game's end event."),
 "C49": ("proved", 'Every sequence of legal moves after a deal.'),
 "C50": ("proved", 'Integer scores; the attributes owari etc. are not read by the code.'),
 "C51": ("proved", 'All winners, losers and player counts; includes how the yaku text is named.'),
 "C52": ("proved", 'Every finite program of calls, raises, with-blocks and try-blocks.'),
 "C53": ("proved", 'Every sequence of legal moves after a deal; count relation to PlayerMeld and the double entry of an added kan.'),
 "C54": ("proved", 'merge: step, kinds, order independence, when it returns'),
 "C55": ("proved", 'for plain tiles of different kinds; in a report unless a five is useful of which the red one is in the hand; general formula and the red-five counterexample also proved'),
 "C56": ("proved", 'for the list and in the report'),
 "C57": ("proved", 'open hands: exact analysis; concealed hands nearer to melds than to pairs: every item right (C57_lower); other concealed hands: exact description of the positional merge and a machine-checked hand where it mixes two discards'),
 "C60": ("proved", 'bijection on the 34 plain kinds; red fives stated separately'),
 "C58": ("proved", 'one report per discard from the states before it; exact failure conditions; a machine-checked game for which the call raises'),
 "C61": ("proved", 'for every hand and number of melds'),
 "C65": ("proved", ''),
 "C66": ("proved", 'the swapped lookup of match_both is stated as it is in the code'),
 "C67": ("proved", "Rows are ordered dictionaries; the DORA event's row holds Tile objects, the deal's row text. %d of fractions is not modelled."),
 "C68": ("proved", 'Names of players are an arbitrary decoding of the encoded names.'),
 "C69": ("proved", 'drop and flatten for arbitrary nested dictionaries; C69_states combines flatten with the executor (C43) for commands whose sub scope and property exist (Addressed). How pandas turns the rows into a frame is not modelled.'),
 "C70": ("proved", "For events naming players 0..3 only (C70_unseated shows why). pandas' storage of rows is not modelled; the text of floats is a parameter."),
 "C71": ("proved", 'For elements as an XML parser gives them (Spec.Element).'),
 "C72": ("proved", 'Over the same translation as C70; hypothesis: events name players 0 to 3. The added columns are texts.'),
 "C74": ("proved", 'For reports that are made (C58 says which are).'),
 "C75": ("proved", ''),
 "C76": ("proved", "Uses C32, C34, C58 and C74. Other players' moves only need to be readable."),
 "C77": ("proved", 'repr of an event always raises, which is proved too'),
 "C78": ("proved", 'hands with at most four of a kind'),
 "C79": ("proved", 'p up to 34, the number of kinds'),
 "C80": ("proved", 'the different reading of the own hand is proved too'),
 "C81": ("proved", 'the table of properties is in Spec/Effects.lean'),
 "C82": ("proved", 'C82_riichi: since the deal, in riichi iff declared; C82_connection: as the last BYE/UN about the player says.'),
 "C83": ("proved", 'For records GO..INIT..: wind, round, repeats, sticks (C83_round, including that later winds cannot be converted), dealer (C83_dealer, also TAIKYOKU), indicators (C83_dora).'),
 "C84": ("proved", 'GO converts for every 16-bit type and sets the header (C84_go); SHUFFLE (C84_seed); UN (C84_player). A rank number below zero gives a title counted from the end.'),
 "C85": ("proved", 'Final scores, points and places (C85_final), nothing else sets them (C85_before_end), nobody_win (C85_nobody), reasons (C85_reason).'),
 "C87": ("proved", 'C87_refuses assumes that lenient conversion of the record succeeds: if a silent event also has unreadable attributes, or an earlier event raises, that exception comes first.'),
 "C88": ("proved", 'default_event_type and Builder contexts are modelled by the keywords each command ends up with (C52 models the builder).'),
 "C89": ("proved", "what pandas makes of the file is the relation TableOf/TableCell (each cell the text, or the truth value, number or missing value it stands for); text properties are given back as the text of their cell, so a missing one is 'nan'"),
 "C90": ("proved", 'Tiles of calls are the decoded ones (C26-C28). After a win the hand of the winner is set anew, see C81.'),
 "C91": ("proved", "unquote of the standard library is modelled in Py/Unquote.lean: the decoder as a state machine over bytes. The encoding is specified with Lean's own UTF-8 encoder of a character. C91_every says what every text is decoded to, also where its bytes are no text, in terms of that encoder and of unfinished characters only."),
 "C92": ("proved", "A browser is the reader of pages in Spec/Html.lean; the template is written out as jinja2 renders it, with markupsafe's escaping."),
 "C93": ("proved", 'The text of a float (the strength of a colour) is a parameter.'),
 "C95": ("proved", 'Floats have 53 bits and any exponent: overflow, underflow, infinities and negative zero are not modelled.'),
 "C24": ("proved", 'random() is any multiple of 2^-53 below 1, the product with the sum of weights is rounded as Python does; containment, remaining wall, proportionality, and what a wall that is used up gives, for walls of at most 2^53 tiles.'),
 "C38": ("proved", 'Numbers are exact decimals; that rounding them to floats does not change the order is C95_order.'),
 "C59": ("proved", 'for all natural arguments, in floats; behaviour outside 0<=r<=n stated in C59_outside'),
 "C62": ("proved", 'in floats; open hands, and concealed ones whose analysis is right (C62_right with C57_lower), unless a five is useful of which the red one is in the hand; the upper bound and the possible steps for all hands; counterexamples to the lower bound for concealed hands and red fives are theorems too. Lists of unseen tiles have at most 2^53 (2^45 for the upper bound) entries.'),
 "C73": ("proved", 'The record is taken as already read; a page is what the template is given here, the page itself is C92 to C94. Digits typed are ASCII.'),
 "C86": ("proved", 'Decimals are exact rationals in the model; the rounding to floats is C95. Not modelled: digits outside ASCII, which int and float also accept, and floats too large or too small for the exponent (1e400 is read as a number, in Python it raises OverflowError).'),
 "C94": ("proved", 'Decimals are rounded from the nearest float, as Python does.'),
 "C96": ("proved", 'From the events of a record to what is read off the page text. The numbers of tiles and the advice are claimed unless a five is useful of which the red one is held (C62_red_five shows why); a red five to discard may be named as a plain one or the other way round if both are held (C74_red_hidden); for a hand without melds the advice is claimed when the hand is nearer to four melds and a pair than to seven pairs (C57_mixed_discards shows why); with three players unseen tiles are numbered as in C33.'),
 "C97": ("proved", 'csv.writer, the tokenizer of read_csv and the columns are modelled; the type inference of pandas is any function that reads each cell as missing, as its text, or as the truth value or number it writes. C97_missing_name and C97_carriage_return are proved disagreements.'),
 "C98": ("proved", 'the predicates of a player on all legal moves; reaches and wins are the elements REACH and AGARI that name the player'),
 "C99": ("proved", 'for the part of XML that records use: text that is not white space, comments, CDATA, processing instructions, document types and names outside ASCII are refused by the model (expat reads them); decoding of bytes is not modelled'),
 "C100": ("proved", 'POSIX paths; the table is a list of rows'),
 "C101": ("proved", 'Python lists and sets as cells of a heap with references; refinement of the models on values (Command, Executor, State). Dictionaries are values here; as objects with parent links see C42.'),
 "C102": ("proved", 'Composition of C97, C99, C43, C70, C48, C49, C50 and C90. Texts (names and reasons) may be read back differently, as C97 says; a carriage return in a text needs the line end of Windows.'),
 "C103": ("proved", 'The shape of a regular record is a specification of its own (Spec/Regular.lean), in terms of elements and attributes; the game of C70 is shown to be a complete record. Elements of a round may come in any order that keeps players to the tiles they hold. The six records of the repository satisfy the hypotheses (Conform/Records.lean).'),
 "C105": ("proved", 'The rates are whatever finite real numbers numpy computes; the prompts and the lines about progress and time are not modelled.'),
 "C106": ("proved", 'Floats have 53 bits and any exponent, rounded to nearest with ties to even; what numpy computes from the matrix is not modelled.'),
 "C63": ("proved", 'random source as a parameter; the shares are exact here, C106 bounds the error of the floats'),
 "C64": ("proved", 'the eigenvector computed by numpy is not modelled; entries are exact here, C106 bounds the error of the floats'),
 "C104": ("proved", 'Composition of C103, C99, C75, C68, C76, C93, C94 and C96. For concealed hands as near to seven pairs as to melds, or whose keeping discards are not all compared, and for hands to which a five is useful of which they hold the red one, the exact condition of the division by zero is not stated in terms of the game, only that it is the one other outcome; what the rows say of such hands is as in C96. The six records of the repository satisfy the hypotheses for every player (Conform/Records.lean).'),
 "C107": ("proved", 'Model/SetStore.lean runs the calls on a list of objects. What a consumer does between two yields is done after the last one; formatting for logging.debug (off by default) is not modelled.'),
 "C108": ("proved", 'Operators as in Python up to 3.9: dict has all four comparisons, so total_ordering adds none. Since 3.10 Counter has its own <=, > and >=.'),
 "C109": ("proved", 'On the model with objects (Model/DictStore.lean). Assigning to attributes and reaching into nested_dict are not modelled.'),
 "C110": ("proved", 'The constructor does not raise here (C52 has exceptions). The handlers of the repository each make a builder of their own, so crossed blocks do not occur in it.'),
 "C05": ("proved", 'All TileSet operations as multiset operations; on objects, the operators make new ones and change none.'),
 "C12": ("proved", 'Monotone, depends on kinds only; hand counts kept, on a model with objects.'),
 "C22": ("proved", 'Steps and useful kinds depend on kinds only; the counts of the hand are kept, on a model with objects.'),
 "C42": ("proved", 'Every tree, path and write history, on values and on objects with parent links (the original objects do not change); also drop and the two different results of setdefault, both on objects too.'),
 "C43": ("proved", 'Every command list the executor addresses; yielded states and exceptions, on values and on objects (C43_objects).'),
}
