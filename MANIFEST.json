{
 "claims": [
  {
   "property": "C01",
   "status": "proved",
   "theorems": [
    "Seiren.C01_print_parse"
   ],
   "note": ""
  },
  {
   "property": "C02",
   "status": "proved",
   "theorems": [
    "Seiren.C02_every_module"
   ],
   "note": ""
  },
  {
   "property": "C03",
   "status": "proved",
   "theorems": [
    "Seiren.C03_quoted_identifier",
    "Seiren.C03_decoding_unique",
    "Seiren.C03_only_pieces"
   ],
   "note": ""
  },
  {
   "property": "C04",
   "status": "proved",
   "theorems": [
    "Seiren.C04_layout_irrelevant",
    "Seiren.C04_layout_result"
   ],
   "note": ""
  },
  {
   "property": "C05",
   "status": "proved",
   "theorems": [
    "Seiren.C05_separators",
    "Seiren.C05_crlf"
   ],
   "note": ""
  },
  {
   "property": "C06",
   "status": "proved",
   "theorems": [
    "Seiren.C06_spans",
    "Seiren.C06_spans_spell_tokens"
   ],
   "note": ""
  },
  {
   "property": "C07",
   "status": "proved",
   "theorems": [
    "Seiren.C07_tokenizer_exact",
    "Seiren.C07_remainder"
   ],
   "note": "C07_tokenizer_exact: the tokenizer returns exactly what the specification Scan demands (tokens, spans, errors)."
  },
  {
   "property": "C08",
   "status": "proved",
   "theorems": [
    "Seiren.C08_whole_words"
   ],
   "note": ""
  },
  {
   "property": "C09",
   "status": "proved",
   "theorems": [
    "Seiren.C09_grammar_exact"
   ],
   "note": "Grammar written independently in Spec/Grammar.lean (dialect `implemented`)."
  },
  {
   "property": "C10",
   "status": "partial",
   "theorems": [
    "Seiren.C10_accepted_exactly_partial",
    "Seiren.C10_documented_accepted_partial",
    "Seiren.C10_documented_grammar_partial",
    "Seiren.C10_refuted"
   ],
   "note": "As stated the claim is false in both directions (C10_refuted): a relation end without a field needs a trailing dot, which the documentation does not mention. The documentation also gives padding as newlines only and allows none in an empty entity. C10_accepted_exactly_partial: a documented sentence, whatever follows it, is accepted exactly if all its relation ends name fields, and then has the documented reading. C10_documented_grammar_partial: accepted sentences without semicolons, empty entities and field-less ends are documented ones."
  },
  {
   "property": "C100",
   "status": "proved",
   "theorems": [
    "Seiren.C100_same",
    "Seiren.C100_at_most",
    "Seiren.C100_at_least",
    "Seiren.C100_every_loop",
    "Seiren.C100_tables",
    "Seiren.C100_source",
    "Seiren.C100_cubic",
    "Seiren.C100_no_quadratic_bound"
   ],
   "note": "Steps are rounds of loops and iterators; the operations of hash maps and of the heap and the copying of vectors are not counted."
  },
  {
   "property": "C101",
   "status": "proved",
   "theorems": [
    "Seiren.C101_values",
    "Seiren.C101_exact",
    "Seiren.C101_text"
   ],
   "note": ""
  },
  {
   "property": "C102",
   "status": "proved",
   "theorems": [
    "Seiren.C102_same",
    "Seiren.C102_at_most",
    "Seiren.C102_at_least",
    "Seiren.C102_every_loop",
    "Seiren.C102_drawing",
    "Seiren.C102_source",
    "Seiren.C102_no_module",
    "Seiren.C102_cubic"
   ],
   "note": "As C100; making an element with its attributes is one step, its text is counted as bytes."
  },
  {
   "property": "C103",
   "status": "proved",
   "theorems": [
    "Seiren.C103_table",
    "Seiren.C103_ends",
    "Seiren.C103_size",
    "Seiren.C103_document",
    "Seiren.C103_drawing",
    "Seiren.C103_program"
   ],
   "note": "Follows the published source of hashbrown 0.12 (trusted base)."
  },
  {
   "property": "C104",
   "status": "proved",
   "theorems": [
    "Seiren.C104_same",
    "Seiren.C104_push",
    "Seiren.C104_pop",
    "Seiren.C104_search",
    "Seiren.C104_at_most",
    "Seiren.C104_source"
   ],
   "note": "Counts calls of MinScored::cmp; follows the published source of std's BinaryHeap (trusted base, as C97)."
  },
  {
   "property": "C105",
   "status": "proved",
   "theorems": [
    "Seiren.C105_below",
    "Seiren.C105_source",
    "Seiren.C105_comment",
    "Seiren.C105_edit",
    "Seiren.C105_unique",
    "Seiren.C105_output",
    "Seiren.C105_spells"
   ],
   "note": "Parts have to be separated by line ends; text behind the closing brace has to be readable (C13)."
  },
  {
   "property": "C106",
   "status": "proved",
   "theorems": [
    "Seiren.C106_no_point_twice",
    "Seiren.C106_to_the_right",
    "Seiren.C106_to_the_left",
    "Seiren.C106_same_line",
    "Seiren.C106_length",
    "Seiren.C106_tables"
   ],
   "note": "Neighbours in a row: C106_to_the_right and C106_to_the_left describe the drawn path of every relation between neighbours that are at the same height or are both columns; C106_same_line gives its three points for columns on one line, C106_length its length. C106_tables shows that the restriction to columns is needed."
  },
  {
   "property": "C107",
   "status": "proved",
   "theorems": [
    "Seiren.C107_down",
    "Seiren.C107_up",
    "Seiren.C107_length",
    "Seiren.C107_not_last"
   ],
   "note": "C107_down and C107_up describe the drawn path of every relation between a table (or its last column) and the table straight below it, C107_length its length; C107_not_last shows that other columns are drawn differently."
  },
  {
   "property": "C108",
   "status": "proved",
   "theorems": [
    "Seiren.C108_beside",
    "Seiren.C108_length",
    "Seiren.C108_right",
    "Seiren.C108_left",
    "Seiren.C108_whole_table"
   ],
   "note": "C108_beside describes the drawn path of every relation between two columns of a table, C108_length its length. C108_right and C108_left are modules where it is on the right and on the left; C108_whole_table shows that the restriction to columns is needed."
  },
  {
   "property": "C109",
   "status": "proved",
   "theorems": [
    "Seiren.C109_to_the_right",
    "Seiren.C109_to_the_left",
    "Seiren.C109_one_above",
    "Seiren.C109_length",
    "Seiren.C109_lines"
   ],
   "note": "C109_to_the_right and C109_to_the_left describe the drawn path for neighbouring columns of the drawing, C109_one_above for tables in the same one, C109_length gives the length of all of them. C109_lines computes an example with all three. The limits on the number of rows are those of the proof: rounding can gain 12 units in each row, and leaving the gap costs 150 to 300."
  },
  {
   "property": "C11",
   "status": "proved",
   "theorems": [
    "Seiren.C11_unambiguous",
    "Seiren.C11_prefixes_unambiguous"
   ],
   "note": ""
  },
  {
   "property": "C110",
   "status": "proved",
   "theorems": [
    "Seiren.C110_text_span",
    "Seiren.C110_badge",
    "Seiren.C110_record",
    "Seiren.C110_field",
    "Seiren.C110_badge_text",
    "Seiren.C110_into_mir"
   ],
   "note": "The builders are those that derive_builder generates for structures marked builder(default); that setters work on a reference and build clones is not modelled."
  },
  {
   "property": "C111",
   "status": "proved",
   "theorems": [
    "Seiren.C111_near",
    "Seiren.C111_far",
    "Seiren.C111_whole",
    "Seiren.C111_at_least",
    "Seiren.C111_between",
    "Seiren.C111_lines"
   ],
   "note": "C111_near and C111_far bound the length by that of an explicit route, C111_whole in terms of the height of the drawing, C111_at_least (columns) and C111_between (all) from below. C111_lines computes an example in which the lower bound is met exactly, once by a line through a table, once by one around it."
  },
  {
   "property": "C112",
   "status": "proved",
   "theorems": [
    "Seiren.C112_points",
    "Seiren.C112_added",
    "Seiren.C112_line",
    "Seiren.C112_straight",
    "Seiren.C112_below",
    "Seiren.C112_beside",
    "Seiren.C112_other_relations",
    "Seiren.C112_other_relations_below"
   ],
   "note": "C112_points and C112_straight say which points are covered; C112_added, C112_below and C112_beside that they stay the same; C112_other_relations and C112_other_relations_below that the other relations do not matter. C112_line: an example in which the list of points changes and the line does not."
  },
  {
   "property": "C113",
   "status": "proved",
   "theorems": [
    "Seiren.C113_near",
    "Seiren.C113_same",
    "Seiren.C113_far",
    "Seiren.C113_tables",
    "Seiren.C113_modules",
    "Seiren.C113_lines"
   ],
   "note": "C113_near: neighbouring columns of the drawing; C113_same: the same column; C113_far: first and third; C113_tables: also whole tables; C113_modules: any two modules in which the two columns stand at the same places. C113_lines: the line of C92_refuted_relation gets longer by 115 where C113_far allows 178."
  },
  {
   "property": "C114",
   "status": "proved",
   "theorems": [
    "Seiren.C114_streets",
    "Seiren.C114_straight",
    "Seiren.C114_street_straight",
    "Seiren.C114_one_table_straight",
    "Seiren.C114_rows",
    "Seiren.C114_lines",
    "Seiren.manyLines_meet"
   ],
   "note": "C114_lines: the lines of an example with three relations along one street."
  },
  {
   "property": "C12",
   "status": "proved",
   "theorems": [
    "Seiren.C12_module_or_one_error"
   ],
   "note": ""
  },
  {
   "property": "C13",
   "status": "partial",
   "theorems": [
    "Seiren.C13_accepted_exact_partial",
    "Seiren.C13_refuted",
    "Seiren.C13_refuted_source"
   ],
   "note": "As stated the claim is false: whatever tokens follow a module, and trailing text in which no token can be read, are accepted without any report. C13_accepted_exact_partial: exactly which sources are accepted without error."
  },
  {
   "property": "C14",
   "status": "proved",
   "theorems": [
    "Seiren.C14_errors_exact",
    "Seiren.C14_no_error_iff"
   ],
   "note": ""
  },
  {
   "property": "C15",
   "status": "proved",
   "theorems": [
    "Seiren.C15_tables_faithful"
   ],
   "note": ""
  },
  {
   "property": "C16",
   "status": "proved",
   "theorems": [
    "Seiren.C16_tree"
   ],
   "note": ""
  },
  {
   "property": "C17",
   "status": "proved",
   "theorems": [
    "Seiren.C17_relations"
   ],
   "note": ""
  },
  {
   "property": "C18",
   "status": "partial",
   "theorems": [
    "Seiren.C18_exactly_partial",
    "Seiren.C18_no_relation_lost_partial",
    "Seiren.C18_definitions_first",
    "Seiren.C18_no_relation_lost_refuted"
   ],
   "note": "Relations written before the definitions they need are dropped by the code: the full statement is refuted. C18_exactly_partial: no relation is lost if and only if every relation follows the definitions of its ends. C18_definitions_first: with all definitions written first, no relation with defined ends is lost."
  },
  {
   "property": "C19",
   "status": "proved",
   "theorems": [
    "Seiren.C19_relations_do_not_influence_tables"
   ],
   "note": ""
  },
  {
   "property": "C20",
   "status": "proved",
   "theorems": [
    "Seiren.C20_tables_never_overlap",
    "Seiren.tabular_intoMir"
   ],
   "note": "For every document of tables; tabular_intoMir: the document of any module is one."
  },
  {
   "property": "C21",
   "status": "proved",
   "theorems": [
    "Seiren.C21_grid",
    "Seiren.tabular_intoMir"
   ],
   "note": ""
  },
  {
   "property": "C22",
   "status": "proved",
   "theorems": [
    "Seiren.C22_lines_tile_table",
    "Seiren.tabular_intoMir"
   ],
   "note": ""
  },
  {
   "property": "C23",
   "status": "partial",
   "theorems": [
    "Seiren.C23_view_box_partial",
    "Seiren.C23_view_box_refuted"
   ],
   "note": "Proved for documents with at least one table; for modules without tables the code computes a negative height (refuted for all such modules)."
  },
  {
   "property": "C24",
   "status": "proved",
   "theorems": [
    "Seiren.C24_touches_positions_only",
    "Seiren.C24_independent_of_earlier_positions",
    "Seiren.C24_idempotent"
   ],
   "note": "For every document whatsoever (independence of positions: for documents of tables)."
  },
  {
   "property": "C25",
   "status": "proved",
   "theorems": [
    "Seiren.C25_appending_never_moves"
   ],
   "note": ""
  },
  {
   "property": "C26",
   "status": "proved",
   "theorems": [
    "Seiren.C26_table_ports",
    "Seiren.C26_line_ports",
    "Seiren.C26_port_ids_unique",
    "Seiren.noPorts_intoMir",
    "Seiren.tabular_intoMir"
   ],
   "note": ""
  },
  {
   "property": "C27",
   "status": "partial",
   "theorems": [
    "Seiren.C27_ports_again_partial",
    "Seiren.C27_ports_again_refuted"
   ],
   "note": "False: a second call adds every port again (refuted for every module with a table). Proved: it changes nothing else, and adds no new place or orientation."
  },
  {
   "property": "C28",
   "status": "proved",
   "theorems": [
    "Seiren.C28_well_formed",
    "Seiren.C28_ports_refer",
    "Seiren.wellFormed_new"
   ],
   "note": "For every sequence of operations that does not panic, by induction over the sequence."
  },
  {
   "property": "C29",
   "status": "proved",
   "theorems": [
    "Seiren.C29_add_node_twice",
    "Seiren.C29_add_node_idempotent",
    "Seiren.C29_add_edge"
   ],
   "note": "On every well formed graph (C28 gives that for all reachable ones)."
  },
  {
   "property": "C30",
   "status": "proved",
   "theorems": [
    "Seiren.C30_search_correct"
   ],
   "note": "Model of petgraph 0.6.2 astar with zero estimate; every cost function, every lawful priority queue (any tie-breaking). Loop invariant and a termination measure."
  },
  {
   "property": "C31",
   "status": "proved",
   "theorems": [
    "Seiren.C31_heap_is_priority_queue",
    "Seiren.C31_search_with_heap"
   ],
   "note": "Model of std BinaryHeap push/pop (swaps in place of a moving hole)."
  },
  {
   "property": "C32",
   "status": "proved",
   "theorems": [
    "Seiren.C32_routing_never_panics",
    "Seiren.C32_module",
    "Seiren.drawable_intoMir"
   ],
   "note": "For every drawable document (every module's document is one) of height at most 10^9 (the u32 path costs cannot overflow then)."
  },
  {
   "property": "C33",
   "status": "proved",
   "theorems": [
    "Seiren.C33_paths_connect_ports"
   ],
   "note": "Any lawful priority queue; documents of height at most 10^9."
  },
  {
   "property": "C34",
   "status": "proved",
   "theorems": [
    "Seiren.C34_paths_orthogonal"
   ],
   "note": "Any lawful priority queue; documents of height at most 10^9."
  },
  {
   "property": "C35",
   "status": "proved",
   "theorems": [
    "Seiren.C35_paths_leave_outward"
   ],
   "note": "Includes that the path has at least two points if the ends are in different tables. Documents of height at most 10^9."
  },
  {
   "property": "C36",
   "status": "proved",
   "theorems": [
    "Seiren.C36_paths_shortest",
    "Seiren.C36_first_ends",
    "Seiren.C30_search_correct"
   ],
   "note": "The cost is the sum of the segment lengths, each rounded down (the code's u32 cost). C36_first_ends says which ends are used if several pairs have equally short routes."
  },
  {
   "property": "C37",
   "status": "proved",
   "theorems": [
    "Seiren.C37_paths_in_view_box"
   ],
   "note": "With a margin of 10."
  },
  {
   "property": "C38",
   "status": "partial",
   "theorems": [
    "Seiren.C38_paths_avoid_tables_partial",
    "Seiren.C38_any_tables",
    "Seiren.C38_two_tables",
    "Seiren.C38_three_tables",
    "Seiren.C38_refuted"
   ],
   "note": "False as stated: C38_refuted gives a horizontal segment (three tables) and a vertical segment (seven tables) through a table. Proved: with at most two tables the claim holds (C38_two_tables); with any number of tables a path passes through a table only straight through its middle up or down, or straight to the left or right, the latter only through a table of the second column of tables at a height where no relation ends at it; the former, if no relation ends at the last column of a table in the same column of tables, only through tables at whose upper and lower side no relation ends (C38_any_tables); for every module, points of paths are outside tables, and horizontal segments pass through a table only if one end has no unobstructed neighbour."
  },
  {
   "property": "C39",
   "status": "partial",
   "theorems": [
    "Seiren.C39_same_shape_partial",
    "Seiren.C39_engine_reuse_partial",
    "Seiren.C39_refuted",
    "Seiren.C39_refuted_panic"
   ],
   "note": "False as stated: another drawing before changes the paths, or makes the engine panic. Proved: drawing modules of the same shape before (same numbers of lines, same order of first mentions in relations) is harmless, as is repeating the same document."
  },
  {
   "property": "C40",
   "status": "partial",
   "theorems": [
    "Seiren.C40_rendering_never_panics_partial",
    "Seiren.C40_any_columns",
    "Seiren.C40_any_tables",
    "Seiren.C40_three_tables",
    "Seiren.C40_two_tables",
    "Seiren.turnsBack_crosses",
    "Seiren.C40_refuted"
   ],
   "note": "As stated the claim is false: C40_refuted is a module with four tables whose rendering panics with a turnaround. Proved: a module, with any number of tables, none of whose relations ends at the last column of a table is drawn exactly if no relation joins an end to itself or a table to its own middle line (C40_any_tables, sharp); the same for modules in which relations do end at last columns, as long as no column of tables has both a last column and a whole table as ends of relations (C40_any_columns; C40_refuted is a module with both); a module with at most three tables is drawn exactly if no relation joins an end to itself or a table to its own last or middle line (C40_three_tables, sharp); for every module, if in addition no path found by the router passes through a table, the module is drawn; a path that turns back passes through a table just before or after and does not return to the same point (turnsBack_crosses). Height bound 10^9 as in C32."
  },
  {
   "property": "C41",
   "status": "partial",
   "theorems": [
    "Seiren.C41_one_point_exact",
    "Seiren.C41_self_relations_partial",
    "Seiren.C41_refuted"
   ],
   "note": "As stated the claim is false, for every such module: C41_refuted shows that any module with a resolved relation from a table or column to itself, or between a table and its own last or middle line, makes drawing panic. C41_self_relations_partial gives exactly the relations whose path has one point."
  },
  {
   "property": "C42",
   "status": "proved",
   "theorems": [
    "Seiren.C42_invalid_layout_exact",
    "Seiren.C42_panic_exact",
    "Seiren.C42_ok_exact",
    "Seiren.C42_never_after_layout"
   ],
   "note": "Tables are reported before lines, lines before edges. The last part is for documents of height at most 10^9."
  },
  {
   "property": "C43",
   "status": "proved",
   "theorems": [
    "Seiren.C43_shows_document",
    "Seiren.C43_texts",
    "Seiren.C43_module"
   ],
   "note": "C43_module: for every module, from the definitions to the texts of the SVG."
  },
  {
   "property": "C44",
   "status": "proved",
   "theorems": [
    "Seiren.C44_clip_paths"
   ],
   "note": ""
  },
  {
   "property": "C45",
   "status": "proved",
   "theorems": [
    "Seiren.C45_path_data",
    "Seiren.C45_points_on_route"
   ],
   "note": ""
  },
  {
   "property": "C46",
   "status": "proved",
   "theorems": [
    "Seiren.C46_turnaround_exact",
    "Seiren.C46_orthogonal"
   ],
   "note": ""
  },
  {
   "property": "C47",
   "status": "partial",
   "theorems": [
    "Seiren.C47_inset_by_partial",
    "Seiren.C47_inset_by_clamped",
    "Seiren.C47_inset_by_center_refuted",
    "Seiren.C47_enlarge"
   ],
   "note": "Proved where the amounts fit into the rectangle and for enlarging; the center is not kept once the size is clamped to zero (refuted)."
  },
  {
   "property": "C48",
   "status": "partial",
   "theorems": [
    "Seiren.C48_contains_point_partial",
    "Seiren.C48_contains_point_refuted"
   ],
   "note": "The code treats the right and bottom edge as inside (pre-condition on the size excluded): refuted at the edges, proved elsewhere."
  },
  {
   "property": "C49",
   "status": "partial",
   "theorems": [
    "Seiren.C49_intersects_line_exact",
    "Seiren.C49_intersects_line_partial",
    "Seiren.C49_intersects_line_refuted",
    "Seiren.C49_upward_never_detected",
    "Seiren.C49_intersected_line_ends"
   ],
   "note": "Exact characterisation of what the code detects; the symmetric statement is refuted (segments going up are never detected)."
  },
  {
   "property": "C50",
   "status": "proved",
   "theorems": [
    "Seiren.C50_path_ends"
   ],
   "note": ""
  },
  {
   "property": "C51",
   "status": "proved",
   "theorems": [
    "Seiren.C51_distance_floor",
    "Seiren.C51_distance_symm",
    "Seiren.C51_orthogonal_direction"
   ],
   "note": ""
  },
  {
   "property": "C52",
   "status": "proved",
   "theorems": [
    "Seiren.C52_color_text",
    "Seiren.C52_color_injective"
   ],
   "note": ""
  },
  {
   "property": "C53",
   "status": "partial",
   "theorems": [
    "Seiren.C53_exit_status_partial",
    "Seiren.C53_refuted"
   ],
   "note": "As stated the claim is false: for every source without a module errors are reported and the exit status is success. C53_exit_status_partial says exactly when it is failure."
  },
  {
   "property": "C54",
   "status": "proved",
   "theorems": [
    "Seiren.C54_output_exact",
    "Seiren.C54_reports_exact",
    "Seiren.C54_layout_irrelevant",
    "Seiren.C54_drawn_without_relations"
   ],
   "note": "Reading the input is in C76 and C77, the contents of the reports in C69; how ariadne prints them is not modelled."
  },
  {
   "property": "C55",
   "status": "partial",
   "theorems": [
    "Seiren.C55_f32_exact_partial",
    "Seiren.C55_rounding",
    "Seiren.C55_refuted"
   ],
   "note": "Proved for every module with a table: with binary32 rounding after every operation both passes give the exact results. False for modules without tables, whose view box height 50 + f32::MIN + 50 is rounded (C55_refuted)."
  },
  {
   "property": "C56",
   "status": "partial",
   "theorems": [
    "Seiren.C56_exactly_partial",
    "Seiren.C56_after_errors_partial",
    "Seiren.C56_comment_text_partial",
    "Seiren.C56_refuted"
   ],
   "note": "As stated the claim is false: in error recovery the text of comments is tokenized. C56_exactly_partial: for any text before it, the text of a comment does not matter to the tokens if and only if the two slashes begin or continue a comment behind the last token before them and no quotation is open that the text could close; C56_after_errors_partial: then it does not matter to the module and the errors either."
  },
  {
   "property": "C57",
   "status": "proved",
   "theorems": [
    "Seiren.C57_f32_drawing",
    "Seiren.C57_square_root"
   ],
   "note": "Every floating point operation of layout, ports, routing and rendering is rounded to binary32. Negative zero and NaN are treated in C94 and C96. The decimal formatting of f32 numbers is modelled in C78 and C79."
  },
  {
   "property": "C58",
   "status": "proved",
   "theorems": [
    "Seiren.C58_picture"
   ],
   "note": "The serialisation of the element tree to text is in C64."
  },
  {
   "property": "C59",
   "status": "proved",
   "theorems": [
    "Seiren.C59_debug_only_adds",
    "Seiren.C59_debug_shows",
    "Seiren.C59_module"
   ],
   "note": ""
  },
  {
   "property": "C60",
   "status": "proved",
   "theorems": [
    "Seiren.C60_notebook"
   ],
   "note": "The serialisation of the element tree is a parameter."
  },
  {
   "property": "C61",
   "status": "proved",
   "theorems": [
    "Seiren.C61_costs_fit",
    "Seiren.C61_machine_drawing"
   ],
   "note": ""
  },
  {
   "property": "C62",
   "status": "proved",
   "theorems": [
    "Seiren.C62_one_report",
    "Seiren.C62_C63_error_report"
   ],
   "note": "The behaviour of chumsky's error merging is modelled as documented in Model/ParseErrors, in any variant in C85; errors of the tokenizer are in C69."
  },
  {
   "property": "C63",
   "status": "proved",
   "theorems": [
    "Seiren.C62_C63_error_report",
    "Seiren.C63_nonempty"
   ],
   "note": "Identifiers are never listed, although they may be possible: parser.rs:173 builds the error of an identifier with an empty list."
  },
  {
   "property": "C64",
   "status": "proved",
   "theorems": [
    "Seiren.C64_svg_text",
    "Seiren.C64_svg_text_escaped"
   ],
   "note": "The text format of the svg crate is modelled from its output in /repo/example and tests/integration_test.rs, which the model reproduces byte for byte (Verif/Tests.lean); whether svg 0.13.0 escapes text is a parameter."
  },
  {
   "property": "C65",
   "status": "partial",
   "theorems": [
    "Seiren.C65_output_partial",
    "Seiren.C65_machine_partial",
    "Seiren.C65_refuted",
    "Seiren.C65_refuted_control",
    "Seiren.C65_injection"
   ],
   "note": "False as stated if text is written unescaped: quoted names may contain markup or control characters. Proved for all sources without quoted identifiers (with a table and at most 10^9 high; on the machine for all of at most 199000 bytes); the control character breaks the output even with escaping. C80 says exactly for which names the output is read back."
  },
  {
   "property": "C66",
   "status": "proved",
   "theorems": [
    "Seiren.C66_road_map"
   ],
   "note": ""
  },
  {
   "property": "C67",
   "status": "proved",
   "theorems": [
    "Seiren.C67_shortest_routes",
    "Seiren.C58_picture"
   ],
   "note": "C58 says the same of the drawn elements."
  },
  {
   "property": "C68",
   "status": "proved",
   "theorems": [
    "Seiren.C68_one_each",
    "Seiren.C68_parser_text",
    "Seiren.C68_message_determines",
    "Seiren.C68_tokenizer_text",
    "Seiren.C68_surrogate_text"
   ],
   "note": "The order of listed tokens is arbitrary in the model (HashSet). How ariadne prints a report with source lines is not modelled."
  },
  {
   "property": "C69",
   "status": "proved",
   "theorems": [
    "Seiren.C69_tokenizer_reports",
    "Seiren.C69_place",
    "Seiren.C69_count"
   ],
   "note": ""
  },
  {
   "property": "C70",
   "status": "proved",
   "theorems": [
    "Seiren.C70_renaming",
    "Seiren.C70_geometry",
    "Seiren.C70_module_name"
   ],
   "note": "Renaming and SameSkeleton (Spec/Rename) relate the modules entry by entry; withoutTexts empties the texts of an element tree. An example shows that merging two names does change the edges."
  },
  {
   "property": "C71",
   "status": "proved",
   "theorems": [
    "Seiren.C71_debug_text",
    "Seiren.C71_debug_text_escaped"
   ],
   "note": "What the debug drawing consists of is C58 and C59. Whether the svg crate escapes text is not visible in /repo; both cases are covered."
  },
  {
   "property": "C72",
   "status": "partial",
   "theorems": [
    "Seiren.C72_relation_order_partial",
    "Seiren.C72_same_relations_partial",
    "Seiren.C72_repeated_relation",
    "Seiren.C72_refuted"
   ],
   "note": "False as stated: C72_refuted gives seven tables and two relations that are drawn in one order and panic in the other. Proved: only the numbers of lines of the tables and the order of the first mentions of tables and columns in relations matter; if these agree, a relation has the same path and the same elements in both drawings, and a module whose relations are among those of a drawn one is drawn. Repeated relations have equal paths. Height bound 10^9 as in C32."
  },
  {
   "property": "C73",
   "status": "partial",
   "theorems": [
    "Seiren.C73_direction_partial",
    "Seiren.C73_refuted"
   ],
   "note": "False as stated: C73_refuted has nine tables and a relation that is drawn along another line if written the other way round. Proved: both routes cost the same, and each of them gone backwards is a cheapest route for the other."
  },
  {
   "property": "C74",
   "status": "partial",
   "theorems": [
    "Seiren.C74_refuted",
    "Seiren.C74_halves_partial",
    "Seiren.C74_true_length_partial",
    "Seiren.C74_rows_partial"
   ],
   "note": "The full claim is false: C74_refuted gives a drawn module with 129 rows of tables and a route for its first relation that is shorter than the drawn one, because the length of each segment is rounded down. C74_halves_partial: the exact loss (half a unit for each segment of broken length), hence the drawn route is a shortest one unless it has at least five such segments more than a shorter one. C74_true_length_partial: the excess is at most half a unit for each vertical segment. C74_rows_partial: however many relations there are, it is at most 28 for each row of tables."
  },
  {
   "property": "C75",
   "status": "proved",
   "theorems": [
    "Seiren.C75_effort"
   ],
   "note": ""
  },
  {
   "property": "C76",
   "status": "proved",
   "theorems": [
    "Seiren.C76_program",
    "Seiren.C76_bytes",
    "Seiren.Spec.InputOf.unique"
   ],
   "note": "Errors while writing to stdout or stderr and arguments that are not Unicode are not modelled."
  },
  {
   "property": "C77",
   "status": "proved",
   "theorems": [
    "Seiren.C77_utf8"
   ],
   "note": ""
  },
  {
   "property": "C78",
   "status": "proved",
   "theorems": [
    "Seiren.C78_numbers",
    "Seiren.C78_text",
    "Seiren.C78_read_back"
   ],
   "note": "Display of f32 is modelled from its documentation (core::fmt is not in /repo); -0.0, infinities and NaN are not represented. C78_text: the printed text is the only one without superfluous digits that is read as the shortest decimal number."
  },
  {
   "property": "C79",
   "status": "proved",
   "theorems": [
    "Seiren.C79_machine_text",
    "Seiren.C79_machine_program",
    "Seiren.C79_empty"
   ],
   "note": ""
  },
  {
   "property": "C80",
   "status": "proved",
   "theorems": [
    "Seiren.C80_exact",
    "Seiren.C80_exact_escaped",
    "Seiren.C80_output",
    "Seiren.C80_every_name"
   ],
   "note": "Relative to the XML reader in Spec/Xml, which refuses comments, CDATA, processing instructions and numeric references."
  },
  {
   "property": "C81",
   "status": "proved",
   "theorems": [
    "Seiren.C81_edit",
    "Seiren.C81_column"
   ],
   "note": ""
  },
  {
   "property": "C82",
   "status": "partial",
   "theorems": [
    "Seiren.C82_refuted",
    "Seiren.C82_devices",
    "Seiren.C82_success_partial",
    "Seiren.C82_cut",
    "Seiren.C82_truncated",
    "Seiren.C82_pieces"
   ],
   "note": "The full claim is false (C82_refuted): standard output is line-buffered and not flushed, so a failure to write the last line is ignored. C82_devices says exactly what happens for all limits; C82_success_partial: success means that at most the last six bytes are lost; C82_truncated: a reader of XML notices; C82_pieces: the same if the bytes are written in any number of pieces."
  },
  {
   "property": "C83",
   "status": "partial",
   "theorems": [
    "Seiren.C83_refuted",
    "Seiren.C83_refuted_names",
    "Seiren.C83_drawing_partial",
    "Seiren.C83_output_partial",
    "Seiren.C83_escaped_partial",
    "Seiren.C83_columns"
   ],
   "note": "False as stated (C83_refuted: a relation to a table is drawn like one to its middle line; C83_refuted_names: quoted names may contain markup). Proved: equal drawings, or equal texts for sources without quoted names, mean equal tables and relations that correspond one by one up to that exception; relations between columns are equal."
  },
  {
   "property": "C84",
   "status": "proved",
   "theorems": [
    "Seiren.C84_tokenizer",
    "Seiren.C84_progress",
    "Seiren.C84_fuel"
   ],
   "note": "For all sources and all policies: the output is that of the model, the errors are a permutation of those of the model, equal if recoveries emit their failure first."
  },
  {
   "property": "C85",
   "status": "proved",
   "theorems": [
    "Seiren.C85_policies"
   ],
   "note": "For all sources and all policies: the same module and the same reports up to the listing of the sets of expected tokens."
  },
  {
   "property": "C86",
   "status": "proved",
   "theorems": [
    "Seiren.C86_failures",
    "Seiren.C86_first",
    "Seiren.C86_exact"
   ],
   "note": "For all modules: every failure is pathTooShort or turnaround, decided by the first relation that cannot be drawn."
  },
  {
   "property": "C87",
   "status": "proved",
   "theorems": [
    "Seiren.C87_formatting",
    "Seiren.C87_crlf",
    "Seiren.parse_reformatted"
   ],
   "note": "For all pairs of reformatted sources, from bytes to bytes; CRLF also for sources with unreadable text."
  },
  {
   "property": "C88",
   "status": "proved",
   "theorems": [
    "Seiren.C88_sizes",
    "Seiren.C88_height",
    "Seiren.C88_route_graph",
    "Seiren.C88_machine",
    "Seiren.C88_program"
   ],
   "note": "C88_program states the whole program on the machine for files of at most 199000 bytes, without hypotheses on heights."
  },
  {
   "property": "C89",
   "status": "partial",
   "theorems": [
    "Seiren.C89_refuted",
    "Seiren.C89_segments",
    "Seiren.C89_lines_partial",
    "Seiren.C89_forward_partial"
   ],
   "note": "The full claim is false (C89_refuted: a segment of length 5 between two corners). C89_segments gives the least lengths of segments for all modules; C89_lines_partial: only lines on vertical segments of length 5 can go back; C89_forward_partial: none does if no relation ends at a whole table with an odd number of columns."
  },
  {
   "property": "C90",
   "status": "proved",
   "theorems": [
    "Seiren.C90_tidy",
    "Seiren.C90_tidy_debug"
   ],
   "note": "How the svg crate prints is modelled from the files in /repo/example (its source is not in /repo), and the theorem says what that printing amounts to for every drawing."
  },
  {
   "property": "C91",
   "status": "partial",
   "theorems": [
    "Seiren.C91_clear_partial",
    "Seiren.C91_even_partial",
    "Seiren.C91_points",
    "Seiren.C91_refuted",
    "Seiren.C91_five"
   ],
   "note": "The full claim is false (C91_refuted): a line can run along the lower side of a table. C91_clear_partial says when, for all modules; C91_even_partial is the full claim if no relation ends at a whole table with an odd number of columns; C91_five: the distance 5 is attained."
  },
  {
   "property": "C92",
   "status": "partial",
   "theorems": [
    "Seiren.C92_added_relation_partial",
    "Seiren.C92_refuted_relation",
    "Seiren.C92_refuted_table"
   ],
   "note": "The full claim is false (C92_refuted_relation, C92_refuted_table). C92_added_relation_partial: a relation whose ends are mentioned before changes no other line."
  },
  {
   "property": "C93",
   "status": "proved",
   "theorems": [
    "Seiren.C93_arguments",
    "Seiren.C93_panic"
   ],
   "note": "Arguments are bytes, as on Unix. Whether the name of the program is looked at is left open."
  },
  {
   "property": "C94",
   "status": "proved",
   "theorems": [
    "Seiren.C94_operations",
    "Seiren.C94_geometry",
    "Seiren.C94_far_lines",
    "Seiren.C94_distance",
    "Seiren.C94_inset_size",
    "Seiren.C94_nan_line",
    "Seiren.C94_positive",
    "Seiren.C94_order",
    "Seiren.C94_nan",
    "Seiren.C94_overflow",
    "Seiren.C94_infinite",
    "Seiren.C94_signs"
   ],
   "note": "Distances: coordinates up to 2^62. The picture: modules with a table, at most 2^22 high. C96 covers the functions of layout.rs and renderer.rs."
  },
  {
   "property": "C95",
   "status": "proved",
   "theorems": [
    "Seiren.C95_same",
    "Seiren.C95_characters",
    "Seiren.C95_plain",
    "Seiren.C95_readable",
    "Seiren.C95_quadratic",
    "Seiren.C95_no_linear_bound",
    "Seiren.C95_tokens",
    "Seiren.C95_at_least",
    "Seiren.C95_words"
   ],
   "note": "Counted are the reads of characters and tokens by the combinators, not the work on error values or outputs."
  },
  {
   "property": "C96",
   "status": "proved",
   "theorems": [
    "Seiren.C96_no_coordinates",
    "Seiren.C96_ordinary",
    "Seiren.C96_drawing",
    "Seiren.C96_text",
    "Seiren.C96_program",
    "Seiren.C96_exact",
    "Seiren.C96_empty"
   ],
   "note": "Up to 2^40 lines or bytes. The debug drawing is not modelled with special values."
  },
  {
   "property": "C97",
   "status": "proved",
   "theorems": [
    "Seiren.C97_lists",
    "Seiren.C97_incident",
    "Seiren.C97_room",
    "Seiren.C97_heap",
    "Seiren.C97_document",
    "Seiren.C97_drawing",
    "Seiren.C97_add_node",
    "Seiren.C97_machine"
   ],
   "note": "petgraph and std are modelled from their documented structure; their sources are not in the sandbox."
  },
  {
   "property": "C98",
   "status": "proved",
   "theorems": [
    "Seiren.C98_program",
    "Seiren.C98_input",
    "Seiren.C98_choices"
   ],
   "note": "How ariadne prints a report is not modelled; special values of f32 are excluded by C96, not part of this composition."
  },
  {
   "property": "C99",
   "status": "proved",
   "theorems": [
    "Seiren.C99_text",
    "Seiren.C99_source",
    "Seiren.C99_program",
    "Seiren.C99_quadratic",
    "Seiren.C99_program_quadratic"
   ],
   "note": "Upper bounds, and a family of sources showing that the quadratic term is needed. How the crate svg lengthens texts is a parameter."
  }
 ]
}