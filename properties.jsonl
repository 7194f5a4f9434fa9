{"id": "C01", "title": "Printing then parsing gives the module back", "statement": "If every name in a module is a plain identifier that is not a keyword, and every end of every relation names a field, then parse(module.to_string()) returns exactly that module, with no tokenizer error and no parser error.", "quantifier": "all modules with such names: any number of entities, fields, relations, any identifier lengths", "why_tests_cant": "a unit test prints a handful of modules; the claim is about every module and every identifier spelling", "anchors": ["src/erd.rs: Display for Module/EntityDefinition/EntityField/EntityPath/EntityRelation", "src/parser.rs: parse"]}
{"id": "C02", "title": "Every module can be written down", "statement": "For every module whatsoever (names may be arbitrary Unicode strings, including empty ones, keywords, back quotes and newlines; relation ends may name whole entities) there is a source text that parses, without errors, to exactly that module.", "quantifier": "all modules, all Unicode names", "why_tests_cant": "the set of names is infinite and includes every control and escape character", "anchors": ["src/parser.rs: parse, tokenizer (quoted_ident, escape), erd_module_parser"]}
{"id": "C03", "title": "Quoted identifiers decode exactly", "statement": "A back-quoted identifier whose body is any sequence of raw characters (anything but \\ and `) and escape sequences (\\\\ \\/ \\\" \\` \\b \\f \\n \\r \\t \\uXXXX) is one token, whose name is the concatenation of the decoded pieces; an error is reported exactly when some \\uXXXX is not a Unicode scalar value, and such an escape decodes to U+FFFD.", "quantifier": "all bodies of any length, any following text", "why_tests_cant": "65536 \\u escapes and unboundedly many bodies", "anchors": ["src/parser.rs: tokenizer (escape, quoted_ident)"]}
{"id": "C04", "title": "Blanks, tabs and comments between tokens never matter", "statement": "Two sources that consist of the same lexemes, separated by any blanks, tabs and line comments (with at least one blank where two words meet), give the same module and the same errors.", "quantifier": "all lexeme sequences and all layouts of blanks and comments", "why_tests_cant": "the number of layouts of one source is unbounded", "anchors": ["src/parser.rs: tokenizer (spaces, comment)"]}
{"id": "C05", "title": "Newlines, CRLF and semicolons are interchangeable separators", "statement": "Replacing any non-empty run of newline / semicolon tokens by any other non-empty run changes neither the module nor whether parsing succeeds; and converting a source from LF to CRLF line ends leaves the parse result unchanged.", "quantifier": "all token sequences; all sources without back quotes and carriage returns", "why_tests_cant": "every position of every source is a place where a separator can be replaced", "anchors": ["src/parser.rs: erd_module_parser (separator, pad), tokenizer (newline)"]}
{"id": "C06", "title": "Token spans locate the tokens", "statement": "The spans reported by the tokenizer are in bounds, non-empty, in order and disjoint; if no error is reported, the characters of each span spell the token, and between spans there are only blanks, tabs and comments.", "quantifier": "all source texts", "why_tests_cant": "error reports for any source index into it with these spans", "anchors": ["src/parser.rs: tokenizer (map_with_span)", "src/main.rs: main (Label::new)"]}
{"id": "C07", "title": "Nothing lexable is lost", "statement": "The tokenizer terminates on every input and consumes it up to a remainder at which no token can be read at any later position.", "quantifier": "all source texts, including arbitrary garbage", "why_tests_cant": "termination and coverage concern every string", "anchors": ["src/parser.rs: tokenizer (recover_with, repeated)"]}
{"id": "C08", "title": "Keywords match whole words only", "statement": "A word [A-Za-z_][A-Za-z0-9_]* that stands alone is a keyword token exactly if it is one of the seven keywords, otherwise the identifier with that exact spelling, whatever prefix it shares with a keyword.", "quantifier": "all words of any length", "why_tests_cant": "infinitely many words share a prefix with a keyword", "anchors": ["src/parser.rs: tokenizer (keyword, ident)"]}
{"id": "C09", "title": "The parser accepts exactly its grammar", "statement": "Parsing a token sequence yields module M exactly if some prefix of the sequence is derived for M by the grammar (the documented EBNF, with relation ends read as identifier '.' [identifier]).", "quantifier": "all token sequences and modules", "why_tests_cant": "soundness and completeness against a grammar range over infinitely many sentences", "anchors": ["src/parser.rs: erd_module_parser"]}
{"id": "C10", "title": "The documented grammar is the implemented one", "statement": "The parser accepts exactly the sentences of the EBNF in the module documentation, where a relation end is identifier [ '.' identifier ].", "quantifier": "all token sequences", "why_tests_cant": "tests contain only relation ends with fields", "anchors": ["src/parser.rs: module documentation, erd_module_parser (entity)"]}
{"id": "C11", "title": "A source has at most one reading", "statement": "No token sequence is derived by the grammar for two different modules.", "quantifier": "all token sequences, all pairs of modules", "why_tests_cant": "ambiguity is a property of the whole grammar", "anchors": ["src/parser.rs: erd_module_parser"]}
{"id": "C12", "title": "A module or exactly one parser error", "statement": "parse returns a module exactly if it returns no parser error; otherwise it returns exactly one parser error. A tokenizer error never prevents a module from being returned if the recovered tokens form one.", "quantifier": "all source texts", "why_tests_cant": "concerns every malformed text", "anchors": ["src/parser.rs: parse"]}
{"id": "C13", "title": "What follows the module", "statement": "Input after the closing brace of the module is rejected or reported.", "quantifier": "all sources", "why_tests_cant": "any trailing text is possible", "anchors": ["src/parser.rs: parse, erd_module_parser"]}
{"id": "C14", "title": "Tokenizer errors are reported exactly for unlexable text", "statement": "The tokenizer reports no error exactly if the source, up to its last token, consists of lexemes without invalid \\u escapes separated by blanks, tabs and comments.", "quantifier": "all source texts", "why_tests_cant": "concerns every text with or without garbage", "anchors": ["src/parser.rs: tokenizer (recover_with)"]}
{"id": "C15", "title": "Tables and columns are translated faithfully", "statement": "The document built from a module has one record per entity definition, in order; its children are a header with the entity's name and one field per column, in order, showing the column's name, type and key.", "quantifier": "all modules", "why_tests_cant": "any number of entities, columns, and repeated names", "anchors": ["src/erd.rs: Module::into_mir"]}
{"id": "C16", "title": "The document is a tree", "statement": "In the document built from any module the root's descendants are exactly all nodes, each non-root node is the child of exactly one node, records are children of the root, fields are children of records, and the ends of every edge exist.", "quantifier": "all modules", "why_tests_cant": "a structural invariant over an unbounded construction", "anchors": ["src/erd.rs: Module::into_mir", "src/mir.rs: Document"]}
{"id": "C17", "title": "Relations connect what they name", "statement": "The edges of the document are, in order, one for each relation both of whose ends are defined before it; each connects the most recent earlier definition of the named entity or field.", "quantifier": "all modules, any interleaving of definitions and relations, repeated names", "why_tests_cant": "depends on the whole history of definitions", "anchors": ["src/erd.rs: Module::into_mir (node_paths)"]}
{"id": "C18", "title": "No relation is lost", "statement": "Every relation whose ends are defined somewhere in the module appears as an edge.", "quantifier": "all modules", "why_tests_cant": "depends on the order of entries", "anchors": ["src/erd.rs: Module::into_mir"]}
{"id": "C19", "title": "Relations do not influence tables", "statement": "The nodes of the document depend only on the entity definitions, not on the relations or where they are written.", "quantifier": "all modules", "why_tests_cant": "all interleavings", "anchors": ["src/erd.rs: Module::into_mir"]}
{"id": "C20", "title": "Tables never overlap", "statement": "After place_nodes the rectangles of any two different tables are separated by at least 80 units horizontally or vertically.", "quantifier": "all modules, all pairs of tables", "why_tests_cant": "any number of tables of any height", "anchors": ["src/layout.rs: SimpleLayoutEngine::place_nodes"]}
{"id": "C21", "title": "Tables are on a three-column grid in reading order", "statement": "Table number i is in column i mod 3 at x = 50 + 380 (i mod 3); tables of the same row share their top; each row starts 80 units below the tallest table of the row above; every table is 300 wide and 35 high per line.", "quantifier": "all modules, all tables", "why_tests_cant": "any number of rows", "anchors": ["src/layout.rs: SimpleLayoutEngine::place_nodes"]}
{"id": "C22", "title": "Columns tile their table", "statement": "The rectangles of a table's header and columns, in order, tile the table's rectangle: same x and width, each 35 high, each starting where the previous ends, the last ending where the table ends.", "quantifier": "all modules, all tables", "why_tests_cant": "any number of columns", "anchors": ["src/layout.rs: SimpleLayoutEngine::place_nodes"]}
{"id": "C23", "title": "The view box encloses the drawing", "statement": "The view box returned by place_nodes has positive size and contains every table with a margin of 50 units on every side.", "quantifier": "all modules", "why_tests_cant": "depends on the heights of all tables of the last row; the empty module is included", "anchors": ["src/layout.rs: SimpleLayoutEngine::place_nodes"]}
{"id": "C24", "title": "Placing is idempotent and touches positions only", "statement": "place_nodes changes only positions and sizes; its result does not depend on earlier positions, so calling it again changes nothing and returns the same view box.", "quantifier": "all documents", "why_tests_cant": "all prior states", "anchors": ["src/layout.rs: SimpleLayoutEngine::place_nodes"]}
{"id": "C25", "title": "Adding at the end never moves existing tables", "statement": "Appending entries (definitions or relations) to a module leaves the position and size of all existing tables and columns unchanged.", "quantifier": "all modules and all appended entries", "why_tests_cant": "compares two runs on arbitrary inputs", "anchors": ["src/layout.rs: SimpleLayoutEngine::place_nodes", "src/erd.rs: Module::add_entry"]}
{"id": "C26", "title": "Ports sit on the outline and face outward", "statement": "Every terminal port lies at the middle of the side of its table or column that its orientation names; a table has all four, a column has left and right, the first also top, the last also bottom; port ids are unique in the document.", "quantifier": "all modules, all nodes", "why_tests_cant": "any number of columns", "anchors": ["src/layout.rs: SimpleLayoutEngine::place_terminal_ports", "src/mir.rs: NodeData::add_terminal_port"]}
{"id": "C27", "title": "Placing ports is idempotent", "statement": "Calling place_terminal_ports again leaves the document unchanged.", "quantifier": "all documents", "why_tests_cant": "all prior states", "anchors": ["src/layout.rs: SimpleLayoutEngine::place_terminal_ports"]}
{"id": "C28", "title": "The route graph stays well formed", "statement": "After any sequence of add_node, add_terminal_port and add_edge calls (on existing nodes) that does not panic, no two nodes share a location, no two edges join the same pair of nodes in either direction, all ends of edges exist and every registered port refers to a node with the port's location and orientation at the time.", "quantifier": "all operation sequences", "why_tests_cant": "all histories of a mutable structure", "anchors": ["src/layout.rs: RouteGraph"]}
{"id": "C29", "title": "Adding a node or edge twice has no effect", "statement": "Adding a node at an occupied location returns the existing node and leaves the graph unchanged; adding an edge that exists in either direction leaves the graph unchanged.", "quantifier": "all graphs reachable by operations, all locations", "why_tests_cant": "all histories", "anchors": ["src/layout.rs: RouteGraph::_add_node, RouteGraph::add_edge"]}
{"id": "C30", "title": "The shortest-path search is correct", "statement": "For any graph with non-negative costs and any two nodes the search terminates; it finds a path exactly if one exists; the path it returns is a path of the graph from start to goal, without repeated nodes, whose cost is the returned cost and is minimal among all walks \u2014 whatever order the priority queue gives to entries of equal cost.", "quantifier": "all graphs, costs, start and goal nodes, all tie-breaking orders", "why_tests_cant": "optimality quantifies over all walks in all graphs", "anchors": ["src/layout.rs: SimpleLayoutEngine::compute_shortest_path (petgraph astar)"]}
{"id": "C31", "title": "std's binary heap is a priority queue", "statement": "With the sift-up / sift-down-to-bottom algorithm of std's BinaryHeap any sequence of pushes and pops returns, at each pop, an entry of least cost among those pushed and not yet popped.", "quantifier": "all operation sequences", "why_tests_cant": "all histories", "anchors": ["src/layout.rs: compute_shortest_path (BinaryHeap in petgraph astar)"]}
{"id": "C32", "title": "Routing never panics", "statement": "For every module (of a total height for which path costs fit in 32 bits), draw_edge_path on the placed document does not panic and gives every edge a path.", "quantifier": "all modules within the size bound", "why_tests_cant": "needs connectivity of the route graph for every diagram", "anchors": ["src/layout.rs: SimpleLayoutEngine::draw_edge_path, RouteGraph::_add_node, compute_shortest_path"]}
{"id": "C33", "title": "Paths connect the right ports", "statement": "The path of every edge starts at a terminal port of its source and ends at a terminal port of its target.", "quantifier": "all modules, all edges", "why_tests_cant": "all diagrams", "anchors": ["src/layout.rs: SimpleLayoutEngine::find_shortest_edges_path"]}
{"id": "C34", "title": "Paths are orthogonal", "statement": "Consecutive points of a path differ in exactly one coordinate.", "quantifier": "all modules, all edges", "why_tests_cant": "all diagrams", "anchors": ["src/layout.rs: connect_nearest_neighbor_edge_junctions"]}
{"id": "C35", "title": "Paths leave and enter ports outward", "statement": "The first segment of a path leaves its port in the port's orientation, and the last segment arrives against the orientation of the final port, so no path starts or ends through its own table.", "quantifier": "all modules, all edges whose ends differ", "why_tests_cant": "all diagrams", "anchors": ["src/layout.rs: RouteNodeData::is_connectable, connect_nearest_neighbor_edge_junctions"]}
{"id": "C36", "title": "Paths are shortest in the route graph", "statement": "The path of an edge has the least cost (sum of segment lengths rounded down) among all walks in the route graph from any port of its source to any port of its target.", "quantifier": "all modules, all edges, all walks", "why_tests_cant": "optimality", "anchors": ["src/layout.rs: find_shortest_edges_path, compute_shortest_path"]}
{"id": "C37", "title": "Paths stay inside the view box", "statement": "All points of all paths lie inside the view box, at least 10 units away from its border.", "quantifier": "all modules, all edges", "why_tests_cant": "all diagrams", "anchors": ["src/layout.rs: place_nodes, draw_edge_path"]}
{"id": "C38", "title": "Paths avoid tables", "statement": "No segment of a path passes through the interior of a table.", "quantifier": "all modules, all edges", "why_tests_cant": "all diagrams; the existing tests have few tables", "anchors": ["src/layout.rs: connect_nearest_neighbor_edge_junctions (no_collision)"]}
{"id": "C39", "title": "An engine can be reused", "statement": "Drawing a document with an engine that has drawn another document before gives the same result as with a new engine.", "quantifier": "all pairs of documents", "why_tests_cant": "all histories of the engine", "anchors": ["src/layout.rs: SimpleLayoutEngine::edge_route_graph"]}
{"id": "C40", "title": "Rendering never panics", "statement": "For every module the laid-out document is rendered without a panic.", "quantifier": "all modules", "why_tests_cant": "all diagrams", "anchors": ["src/renderer.rs: draw_edge_connection", "src/main.rs: main"]}
{"id": "C41", "title": "Self relations", "statement": "A relation from a table or column to itself is drawn.", "quantifier": "all modules containing such a relation", "why_tests_cant": "any surrounding diagram", "anchors": ["src/layout.rs: find_shortest_edges_path", "src/renderer.rs: draw_edge_connection (assert)"]}
{"id": "C42", "title": "InvalidLayout is reported exactly for missing layout", "statement": "render returns InvalidLayout exactly if some table or column has no position or some edge has no path (edges before it being drawable), and names such a node; after the three layout steps it is never returned.", "quantifier": "all documents", "why_tests_cant": "all partially laid out documents", "anchors": ["src/renderer.rs: render, draw_edge_connection", "src/error.rs: BackendError"]}
{"id": "C43", "title": "The SVG shows every table, column and relation once, in order", "statement": "The rendered SVG contains, after the background and the definitions, for each table in order its rectangle followed by its columns' elements in order, and then for each edge a path and two circles at the path's ends; the texts are the names, types and keys in order.", "quantifier": "all laid-out documents", "why_tests_cant": "all diagrams", "anchors": ["src/renderer.rs: render"]}
{"id": "C44", "title": "Clip paths are unique and match", "statement": "All clip path ids in an SVG are different; every clip-path reference names a clip path of the same SVG, whose rectangle is the rectangle of the table the reference is in.", "quantifier": "all laid-out documents", "why_tests_cant": "any number of tables", "anchors": ["src/renderer.rs: render"]}
{"id": "C45", "title": "Path data follow the route", "statement": "For an orthogonal path without turnaround the SVG path data start at the first point, end at the last, and every point they name lies on the route's lines at distance at most 6 from the corresponding route point; every change of direction is drawn as one quadratic curve whose control point is the corner.", "quantifier": "all point lists", "why_tests_cant": "all routes", "anchors": ["src/renderer.rs: draw_edge_connection"]}
{"id": "C46", "title": "Turnaround is detected exactly", "statement": "draw_edge_connection panics exactly for paths of fewer than two points or with two consecutive segments in opposite directions.", "quantifier": "all point lists", "why_tests_cant": "all routes", "anchors": ["src/renderer.rs: draw_edge_connection"]}
{"id": "C47", "title": "inset_by shifts every side by the given amounts", "statement": "inset_by moves every side inward by the given amounts (outward for negative ones) and keeps the center, the size never becoming negative.", "quantifier": "all rectangles and amounts", "why_tests_cant": "continuous parameters, clamping cases", "anchors": ["src/geometry.rs: Rect::inset_by"]}
{"id": "C48", "title": "contains_point agrees with its documentation", "statement": "contains_point holds for exactly the points inside the rectangle, not for points on its right or bottom edge, and never for an empty rectangle.", "quantifier": "all rectangles and points", "why_tests_cant": "boundary cases in a continuum", "anchors": ["src/geometry.rs: Rect::contains_point"]}
{"id": "C49", "title": "intersects_line detects segments that meet the rectangle", "statement": "intersects_line holds exactly if the segment has a point in the (closed) rectangle and is not entirely inside its interior; intersected_line then returns the ends of the common part; both do not depend on the order of the end points.", "quantifier": "all rectangles and segments", "why_tests_cant": "continuous parameters, all directions", "anchors": ["src/geometry.rs: Rect::intersects_line, Rect::intersected_line"]}
{"id": "C50", "title": "Paths remember their ends", "statement": "For any sequence of move_to, line_to and quad_to calls on a new Path, start_point returns the point given to Path::new, end_point the last point given, and neither panics.", "quantifier": "all call sequences", "why_tests_cant": "all histories", "anchors": ["src/geometry.rs: Path"]}
{"id": "C51", "title": "Distances and directions", "statement": "The distance used for route costs, rounded down, is n exactly if n\u00b2 \u2264 dx\u00b2 + dy\u00b2 < (n+1)\u00b2; it does not depend on the order of the points; orthogonal_direction of two different axis-aligned points is the direction of travel, and the opposite direction backwards.", "quantifier": "all points", "why_tests_cant": "continuous parameters", "anchors": ["src/geometry.rs: Point::distance, Point::orthogonal_direction"]}
{"id": "C52", "title": "Colours are written unambiguously", "statement": "The text of an RGB colour is '#' and six upper-case hexadecimal digits that decode to the colour; different colours have different texts.", "quantifier": "all 2^24 RGB colours and the named ones", "why_tests_cant": "16 million colours", "anchors": ["src/color.rs: WebColor, RGBColor, NamedColor"]}
{"id": "C53", "title": "Exit status tells whether the source was accepted", "statement": "The program exits with a failure status if it reported an error.", "quantifier": "all source texts", "why_tests_cant": "all malformed sources", "anchors": ["src/main.rs: main"]}
{"id": "C54", "title": "Output exactly if there is a module", "statement": "The program writes an SVG to standard output exactly if the source contains a module that can be drawn; it reports each tokenizer and parser error on standard error; what it writes depends on the source text only.", "quantifier": "all source texts", "why_tests_cant": "all sources", "anchors": ["src/main.rs: main"]}
{"id": "C55", "title": "Single-precision layout is exact", "statement": "All coordinates computed by place_nodes and place_terminal_ports are exact in 32-bit floating point (no rounding occurs), for diagrams up to 2^22 units high.", "quantifier": "all modules within the bound", "why_tests_cant": "rounding depends on accumulated sums over arbitrarily many rows", "anchors": ["src/layout.rs: place_nodes, place_terminal_ports"]}
{"id": "C56", "title": "Comments are ignored", "statement": "The text of a comment never influences the module: replacing it by any other text on the line leaves the result of parsing unchanged.", "quantifier": "all sources, all comments, all replacement texts", "why_tests_cant": "any text may stand in a comment, and anything before it", "anchors": ["src/parser.rs: tokenizer (comment, recover_with(skip_then_retry_until([])))"]}
{"id": "C57", "title": "The whole drawing is exact in single precision", "statement": "For a module with at least one table whose diagram is at most 2^22 units high, running layout, terminal ports, routing (junctions, visibility tests, distances, search) and rendering in 32-bit floating point, with every operation rounded and a correctly rounded square root, gives exactly the drawing that exact arithmetic gives; no operation overflows.", "quantifier": "all modules within the bound, all priority queues, all behaviours of overflowing operations", "why_tests_cant": "rounding in the visibility tests depends on quotients of arbitrary coordinates; a test cannot rule out that some diagram has a line wrongly hidden by a rounding", "anchors": ["src/layout.rs: place_nodes, place_terminal_ports, draw_edge_path", "src/geometry.rs: intersected_line, distance", "src/renderer.rs: draw_record, draw_edge_connection"]}
{"id": "C58", "title": "The whole picture", "statement": "For every module with at least one table whose diagram is at most 10^9 units high, the SVG document drawn (if drawing succeeds) is exactly a picture that is written down directly from the module: view box, background, every table frame, header, column name, column type with its colour, key badge with its colours, fonts, anchors, offsets and clip paths, each at its written-down position, followed by one group (path and two end circles) per connection in order; each path runs from the middle of a side of its first end to the middle of a side of its second end along horizontal and vertical lines, with corners drawn as in C45.", "quantifier": "all modules within the bound, all lawful priority queues", "why_tests_cant": "snapshot tests fix a few diagrams; a wrong colour of one column type, a wrong offset in the third grid column or a clip path attached to the wrong table only shows for modules that no snapshot contains", "anchors": ["src/renderer.rs: SVGRenderer::render, draw_edge_connection", "src/erd.rs: Module::into_mir, ColumnType, color", "src/layout.rs: place_nodes"]}
{"id": "C59", "title": "Debug drawing", "statement": "Asking the renderer for debug information never changes whether rendering succeeds and never changes anything drawn without it: it only appends elements. For a well-formed route graph it appends, in order, for every edge of the graph a line and an arrow (tip 4 before the target, 7 long, 5 wide, centred on the edge and pointing along it), for every node a dot and its number, a dot for every point of every path, and the number of every placed child of the body. For modules the graph is well-formed and every edge has a direction.", "quantifier": "all documents, view boxes and well-formed route graphs; all modules within the size bound", "why_tests_cant": "the debug drawing is switched off by a constant and not covered by the snapshots", "anchors": ["src/renderer.rs: draw_debug_info, render", "src/main.rs: DEBUG"]}
{"id": "C60", "title": "Notebook output", "statement": "draw_erd panics exactly when rendering the document fails; otherwise the notebook output is the begin line, the text of the drawing and the end line, and the text is recovered exactly by cutting off these lines, whatever characters it contains.", "quantifier": "all documents, view boxes and serialisations", "why_tests_cant": "there are no tests of the notebook output, and it has to hold for any text of the drawing", "anchors": ["src/evcxr.rs: draw_erd, SVGOutput::evcxr_display"]}
{"id": "C61", "title": "Path costs fit into 32 bits", "statement": "While the edges of a document of height at most 10^9 are routed, no sum of path costs reaches 2^32, neither a returned cost nor one that is only queued in the search, so overflow behaviour cannot matter; together with C57, the drawing computed with 32-bit floats and 32-bit costs is that of exact arithmetic.", "quantifier": "all drawable documents and modules within the bounds, all lawful priority queues, all behaviours of overflowing sums", "why_tests_cant": "only very high diagrams come near the limit, and which sums the search forms depends on the order of the queue", "anchors": ["src/layout.rs: RouteCost, compute_shortest_path, find_shortest_edges_path"]}
{"id": "C62", "title": "Error at the first wrong token", "statement": "When a source is rejected by the parser, the one reported error points at the first token at which it went wrong: the tokens before it begin some module, and either the input ended there (the report says so and points just behind the last character) or no module begins with the tokens up to and including the reported one, whose span is reported.", "quantifier": "all sources", "why_tests_cant": "the parser backtracks and keeps alternative errors; whether the furthest one is always the first wrong token depends on every alternative of the grammar, and no test looks at an error", "anchors": ["src/parser.rs: parse, erd_module_parser", "src/main.rs: main (error reports)"]}
{"id": "C63", "title": "Exact list of expected tokens", "statement": "The tokens a parser error lists as expected are exactly the tokens, other than identifiers, that could stand at the reported place so that a module can still follow; the list is never empty, so the message 'something else' never appears.", "quantifier": "all sources rejected by the parser, all tokens", "why_tests_cant": "the list is assembled from alternatives all over the grammar by merging errors at the same position", "anchors": ["src/parser.rs: erd_module_parser", "src/main.rs: main (expected list)"]}
{"id": "C64", "title": "The text that is written reads back as the picture", "statement": "The text written for a module whose names are plain text (or any names made of XML characters, if text is escaped) is a well-formed XML document; an independent XML reader gets from it exactly the elements, attributes, numbers, path data and texts of the picture of the module, with every number being exactly the coordinate.", "quantifier": "all modules with at least one table, total height up to 10^9, all priority queues", "why_tests_cant": "three example files are compared; nesting, attribute order, number formatting and quoting must be right for every module", "anchors": ["src/renderer.rs: render", "src/main.rs: main"]}
{"id": "C65", "title": "Output is always well-formed", "statement": "Every run that writes a drawing writes a well-formed XML document containing only elements of the picture.", "quantifier": "all sources", "why_tests_cant": "names may contain any character by quoted identifiers and escape sequences; no test contains such a name", "anchors": ["src/renderer.rs: draw_text", "src/parser.rs: tokenizer"]}
{"id": "C66", "title": "The road map", "statement": "The route graph of a module is a road map that depends only on the numbers of lines of its tables and on which tables and columns are related: its nodes are, in order, the crossings (corners of the frames at distance 40 around the tables and the points where the ways straight out of relation ends meet the streets through those corners, without those close to a table) and the ends of relations; two nodes are joined exactly if one is the nearest eligible node of the other in one of the four directions.", "quantifier": "all modules of total height up to 10^9, all priority queues", "why_tests_cant": "the graph is internal; a missing or additional junction changes some drawings only", "anchors": ["src/layout.rs: draw_edge_path (lines 443-499)", "src/layout.rs: edge_junction_nodes_around_shapes", "src/layout.rs: edge_junction_nodes_from_terminal_port", "src/layout.rs: remove_overlapped_junction_nodes", "src/layout.rs: connect_nearest_neighbor_edge_junctions"]}
{"id": "C67", "title": "Relations follow shortest routes of the road map", "statement": "Every relation is drawn along a route of the road map of C66 from an end at its first table or column to an end at its second one, and no such route, between any of the possible ends, is shorter; among pairs of ends with equally short routes the first one is used.", "quantifier": "all modules of total height up to 10^9, all priority queues, all routes of the road map", "why_tests_cant": "needs comparison with all routes between all pairs of ends", "anchors": ["src/layout.rs: draw_edge_path", "src/layout.rs: compute_shortest_path"]}
{"id": "C68", "title": "The text of error reports", "statement": "One report is printed for every error. The report about a parser error is located at the first token with which the source stops being the beginning of a module (or behind the end), says whether it is a token or the end of the input, and lists the names of exactly the tokens other than identifiers that could stand there, each once and at least one; the message determines that set. The report about a tokenizer error shows the character found and lists the expected characters, or says 'something else' if there are none; the one about a surrogate says 'invalid unicode character'.", "quantifier": "all sources, all orders in which a HashSet lists its members, all ways of colouring", "why_tests_cant": "the order of a HashSet changes from run to run, and the set of tokens that could follow is a statement about all continuations", "anchors": ["src/main.rs: main (lines 28-105)", "src/parser.rs: Token Display (lines 44-72)"]}
{"id": "C69", "title": "What tokenizer errors say", "statement": "Where characters are skipped, exactly one error is reported, about the token tried at the first of them: it is located at the earliest character with which what stands there is no longer the beginning of a lexeme (for a back quote that is never closed: at the end of the source), shows that character, and lists characters that would continue a lexeme; of those that would, only letters and underscores at the beginning of a token, and characters inside back quotes other than ` and \\, are not listed. Every escape of a surrogate in a token that is read is reported at its four digits. Nothing is reported about characters behind the last token.", "quantifier": "all sources", "why_tests_cant": "errors come from merging the failures of all alternatives, at any nesting of pieces inside back quotes", "anchors": ["src/parser.rs: tokenizer (lines 92-168)"]}
{"id": "C70", "title": "Names do not matter to the drawing", "statement": "If the tables of a module get new names, and the columns of every table get new names, so that different names stay different, the drawing stays the same except for the contents of texts: same elements, same order, same attributes, or the same failure. If the types and keys of columns change as well, still every rectangle, every port, the route graph, all routes and the view box stay the same. The name of the module is never drawn.", "quantifier": "all modules, all injective renamings of tables and, per table, of columns, all priority queues", "why_tests_cant": "quantifies over all renamings; a hash collision, an order by name or a width computed from a name would show only for particular names", "anchors": ["src/erd.rs: Module::into_mir", "src/layout.rs: SimpleLayoutEngine", "src/renderer.rs: SVGRenderer::render"]}
{"id": "C71", "title": "The text of the debug drawing", "statement": "If the names of tables and columns are plain text, the text written for the debug drawing of a module is well-formed XML, and reading it gives back the debug drawing: all its elements in order, with their attributes and texts, and the numbers read in the attributes - those of the corners of the arrows included - are exactly those of the drawing.", "quantifier": "all modules with at least one table within the size bound, with plain names", "why_tests_cant": "the debug drawing is switched off by a constant and not covered by the snapshots; the numbers of nodes and arrows are unbounded", "anchors": ["src/renderer.rs: draw_debug_info, render (to_string)"]}
{"id": "C72", "title": "The order of relations", "statement": "The order in which relations are written does not influence how each of them is drawn, nor whether the module is drawn at all.", "quantifier": "all pairs of modules with the same tables and the same relations in different orders", "why_tests_cant": "the order of relations fixes the order of the nodes of the route graph, the choice among first candidates in connect_nearest_neighbor_edge_junctions and ties in the search; no finite set of modules covers the permutations", "anchors": ["src/layout.rs: draw_edge_path, connect_nearest_neighbor_edge_junctions, find_shortest_edges_path"]}
{"id": "C73", "title": "The direction of a relation", "statement": "A relation written the other way round is drawn along the same line, gone backwards.", "quantifier": "all modules, all relations in them, all positions of the relation", "why_tests_cant": "the search breaks ties between routes of the same cost by the order in which nodes are queued, which starts at the other end for the reversed relation; only some layouts have several cheapest routes", "anchors": ["src/layout.rs: draw_edge_path, find_shortest_edges_path", "src/parser.rs: relation"]}
{"id": "C74", "title": "Drawn routes are truly shortest", "statement": "No route along the road map between the ends of a relation is shorter than the drawn one, in true length.", "quantifier": "all modules, all relations, all routes between ends of the same tables or columns", "why_tests_cant": "the search minimises a sum of lengths each rounded down to a whole number, so the error grows with the number of segments and no finite set of diagrams bounds it", "anchors": ["src/layout.rs: find_shortest_edges_path, edge_cost", "src/geometry.rs: distance"]}
{"id": "C75", "title": "The effort of routing", "statement": "With T tables and R drawn relations the route graph has at most 10T + 16R nodes and at most four times as many edges; every relation takes at most 16 searches, each of which ends after at most 2E + 2 rounds, where E is the number of edges.", "quantifier": "all modules that are drawn, all pairs of nodes for the search", "why_tests_cant": "tests measure the work for single inputs; that it stays linear in tables and relations needs an argument about coinciding crossings for every layout, and the bound on rounds needs an invariant of the search", "anchors": ["src/layout.rs: draw_edge_path, edge_junction_nodes_from_terminal_port, connect_nearest_neighbor_edge_junctions, find_shortest_edges_path, compute_shortest_path"]}
{"id": "C76", "title": "The program from bytes to bytes", "statement": "A run reads the file named by its first argument, or standard input if there is none, and nothing else matters. If the source cannot be read or is not UTF-8, nothing is reported or written and the program fails. Otherwise the errors of the source are reported under its name, and standard output receives exactly the UTF-8 bytes of the drawing of the module in the source; it stays empty if there is no module (success) or the module cannot be drawn (panic).", "quantifier": "all argument lists, file systems, standard inputs (any bytes)", "why_tests_cant": "arguments and byte sequences are unbounded; the integration tests call the library and never run main", "anchors": ["src/main.rs: main", "src/renderer.rs: render"]}
{"id": "C77", "title": "UTF-8", "statement": "Exactly the byte sequences that are the UTF-8 encoding (shortest form) of a text are accepted as sources, the source is that text, and every text has exactly one encoding.", "quantifier": "all byte sequences, all texts", "why_tests_cant": "overlong forms, surrogates and truncated sequences at any place of an unbounded input", "anchors": ["src/main.rs: main (read_to_string)", "src/renderer.rs: render (svg::write)"]}
{"id": "C78", "title": "Numbers as text", "statement": "Every number of the 32-bit format that is written is printed as a decimal number without exponent that is rounded back to exactly that number when it is read; no multiple of a greater power of ten would be, and among the multiples of the same power of ten that are, the printed one is closest.", "quantifier": "all finite 32-bit numbers", "why_tests_cant": "there are 2^32 numbers, and minimality quantifies over all shorter decimal numbers", "anchors": ["src/renderer.rs: render, draw_edge_connection (to_string of f32)"]}
{"id": "C79", "title": "The text written on the machine", "statement": "For every source whose module has a table and a picture of height at most 2^22, the program computed with 32-bit floating point numbers, 32-bit path costs and printed f32 numbers writes exactly the bytes of the exact model and exits alike; for a module without tables it writes one fixed text, with a view box of height -3.4028235e38.", "quantifier": "all sources, argument lists, queues, behaviours of overflowing operations", "why_tests_cant": "the rounding error of each of unboundedly many operations and the digits of each number would have to be compared", "anchors": ["src/main.rs: main", "src/layout.rs", "src/renderer.rs"]}
{"id": "C80", "title": "Exactly which outputs are read back", "statement": "The text written for a drawn module is a well-formed XML document (as far as the XML reader of the specification goes) that shows the drawing if and only if all names of tables and columns are plain text: characters that XML allows, no <, no &, no carriage return, no ]]>. If text were escaped: if and only if the names consist of characters XML allows other than carriage returns. Every text that is not plain is the name of a table in some source whose drawing is written but is not read back.", "quantifier": "all modules with at least one table, total height up to 10^9, all priority queues, all names", "why_tests_cant": "that no combination of names with markup in them yields by chance a document showing the drawing quantifies over all names", "anchors": ["src/renderer.rs: render", "src/main.rs: main"]}
{"id": "C81", "title": "Editing one table moves only the rows below it", "statement": "If one table of a module is changed in any way, then in the drawing the other tables of its row and all tables of the rows above stay exactly as they are, the table keeps its corner, and all tables in the rows below are moved down by one and the same distance, 35 times the change in the number of lines of the longest table of that row; one more column moves them by 35 if the table was a longest one of its row and not at all otherwise.", "quantifier": "all pairs of modules that differ in the definition of one table (and arbitrarily in relations)", "why_tests_cant": "needs all sizes and numbers of tables", "anchors": ["src/layout.rs: SimpleLayoutEngine::place_nodes", "src/renderer.rs: render"]}
{"id": "C82", "title": "Success means that the drawing is complete", "statement": "A run that ends with success has written the complete drawing (false: the last line may be lost). On devices that take only some of the reports and bytes: if a report cannot be printed, the program panics before it writes anything; otherwise it writes exactly the first bytes of the drawing that the device takes, and it panics if and only if more than the last line </svg> is lost. If the complete drawing can be read as XML, a drawing that is cut off anywhere cannot.", "quantifier": "all sources, ways to call the program, and limits of standard output and standard error", "why_tests_cant": "needs every place at which a device can fill up", "anchors": ["src/main.rs: main", "src/renderer.rs: render"]}
{"id": "C83", "title": "The drawing tells the module", "statement": "Two sources for which the same SVG is written have the same tables, with the same columns in the same order, and the same relations (false as stated). True: drawings are equal only if tables and columns are equal and the relations, one by one, join the same things, except that a whole table may stand for its own last or middle line; relations between columns are determined exactly. For the text this needs names that are not markup: with quoted names two modules with different tables can be written alike.", "quantifier": "all pairs of modules and of sources", "why_tests_cant": "needs all pairs of modules", "anchors": ["src/renderer.rs: render", "src/layout.rs: SimpleLayoutEngine::place_terminal_ports", "src/main.rs: main"]}
{"id": "C84", "title": "The tokenizer is what its combinators compose to", "statement": "The tokenizer composed of chumsky's combinators exactly as in parser.rs:92-168 always has an output, with the same tokens and spans as the hand-written model of the tokenizer, and it emits the same errors (place, character found, characters expected, messages), each as often - for every choice of those details of chumsky that are left open: which alternative of `or` is taken when both emitted errors, which emitted errors of failed alternatives are kept, whether failed alternatives become part of the alternative error, the error of text::keyword, and the order in which a recovery emits its failure. The order of the errors is the model's when the failure comes first. Every repeated parser consumes a character whenever it succeeds.", "quantifier": "all sources, all policies", "why_tests_cant": "needs all sources, and all versions of the details left open", "anchors": ["src/parser.rs: tokenizer"]}
{"id": "C85", "title": "Errors of failed alternatives do not matter", "statement": "What the token parser returns and reports (the module; place, token found and set of tokens expected) is the same whether or not a choice keeps the error of a failed alternative when a later alternative succeeds, and however the sets of expected tokens are listed when they are united.", "quantifier": "all sources, all ways of keeping errors", "why_tests_cant": "needs all sources, and all versions of the details left open", "anchors": ["src/parser.rs: erd_module_parser", "src/parser.rs: parse"]}
{"id": "C86", "title": "How drawing can fail", "statement": "Drawing a module fails in two ways only. The first relation that cannot be drawn decides: if its ends have a port at the same place, the program panics because the path has fewer than two points, otherwise because the path turns back. The other panics of the code (conflicting orientations, no route, missing path or node) and the error InvalidLayout do not occur. A module without relations is always drawn.", "quantifier": "all modules (of at most 10^9 units height), all lawful priority queues", "why_tests_cant": "the absence of the other failures is a statement about all modules", "anchors": ["src/layout.rs: RouteGraph::_add_node", "src/layout.rs: SimpleLayoutEngine::compute_shortest_path", "src/layout.rs: SimpleLayoutEngine::draw_edge_path", "src/renderer.rs: render", "src/renderer.rs: draw_edge_connection"]}
{"id": "C87", "title": "Formatting does not change the output", "statement": "Runs of the program on two sources that differ only in blanks, tabs, comments, line ends, the choice and number of separators and the quoting of names write the same bytes, end in the same way and report equally many errors, whatever the files are called.", "quantifier": "all pairs of such sources, all arguments, any floating-point arithmetic", "why_tests_cant": "there are infinitely many ways to format every source", "anchors": ["src/main.rs: main", "src/parser.rs: tokenizer", "src/parser.rs: erd_module_parser"]}
{"id": "C88", "title": "Sizes in terms of the source", "statement": "A source of n characters contains at most n/3 tables and columns and n/6 drawn relations; its picture is at most 21 n + 100 high; the document has at most n nodes, the route graph at most 4 n nodes and 16 n edges. Hence for every file of at most 199000 bytes whose module has a table the program, computing with 32-bit numbers, does exactly what the exact model does: it succeeds and writes the picture, or it panics because of a relation whose ends coincide or whose path turns back. For files of at most 47 million characters the heights assumed by other claims and all 32-bit indices are within their bounds.", "quantifier": "all sources, of at most 199000 bytes or 47 million characters where stated", "why_tests_cant": "bounds over all sources", "anchors": ["src/main.rs: main", "src/layout.rs: SimpleLayoutEngine::place_nodes", "src/layout.rs: SimpleLayoutEngine::draw_edge_path", "src/erd.rs: Module::into_mir", "src/parser.rs: parse"]}
{"id": "C89", "title": "Rounded corners fit into their segments", "statement": "The corners of a path, rounded with radius 6, fit between its points: on every segment the line from the end of one corner to the start of the next goes forward. (False: two corners that are 5 apart overlap, and the line between them goes back.) What holds: horizontal segments are at least 40 long and vertical ones at least 12.5, except for vertical ones of length 5, which occur only if a relation ends at a whole table with an odd number of columns; every other line goes forward.", "quantifier": "all modules, any number of tables, all paths and segments", "why_tests_cant": "needs the least distance between places over all modules and all routes", "anchors": ["src/renderer.rs: draw_edge_connection", "src/layout.rs: SimpleLayoutEngine::draw_edge_path", "src/layout.rs: edge_junction_nodes_from_terminal_port"]}
{"id": "C90", "title": "How the output is laid out", "statement": "The text written for a module whose names are plain text has the attributes of every element in ascending order of their names (by code points), every element and every text on lines of its own with exactly one line break before each element and each closing tag, one blank before each attribute, values between double quotes, and nothing else; the same holds for the debug drawing.", "quantifier": "all modules with at least one table, total height up to 10^9, with plain names; all priority queues", "why_tests_cant": "the snapshots fix the layout of three files only; which attributes an element has depends on keys, colours and relations", "anchors": ["src/renderer.rs: render (to_string)", "src/main.rs: main"]}
{"id": "C91", "title": "Lines keep away from tables", "statement": "A line of a relation that neither passes through a table nor ends at it stays at least 5 away from it. (False: it can run exactly along the lower side of the table.) What holds: a line that neither passes through a table nor begins or ends at one of its sides, going straight away from it, either runs along its lower side, which happens only if some relation ends at a whole table with an odd number of columns, or stays at least 5 away; each point of a path is on a side of the table or at least 40 away from it. The distance 5 is attained.", "quantifier": "all modules, any number of tables, all paths, segments and tables", "why_tests_cant": "needs the least distance between all lines and all tables over all modules", "anchors": ["src/layout.rs: SimpleLayoutEngine::draw_edge_path", "src/layout.rs: remove_overlapped_junction_nodes", "src/layout.rs: connect_nearest_neighbor_edge_junctions"]}
{"id": "C92", "title": "Adding at the end leaves the lines alone", "statement": "Adding a relation or a table at the end of a module leaves the lines of the relations already there as they were. (False both for relations and for tables: a straight line can even become a longer one with four turns.) What holds: adding a relation between two tables or columns at which relations end already adds one line and leaves all others as they were.", "quantifier": "all modules, any number of tables and relations, all added relations", "why_tests_cant": "compares the drawings of all pairs of modules that differ by one relation; which relations are harmless depends on all those before", "anchors": ["src/layout.rs: SimpleLayoutEngine::draw_edge_path", "src/layout.rs: RouteGraph", "src/mir.rs: Document::add_edge"]}
{"id": "C93", "title": "Arguments that are not Unicode", "statement": "The program looks at its first argument and, depending on the version of the standard library, at its own name, and at no other. If it looks at one that is not Unicode it panics at once, reads nothing and writes nothing; otherwise it behaves as for the first argument alone, and without arguments it reads standard input whatever its name is. A panic is due to such an argument or to a module in the source that cannot be drawn.", "quantifier": "all lists of arguments as bytes, all files, all inputs", "why_tests_cant": "arguments may be any bytes, and any number of them may follow", "anchors": ["src/main.rs: main"]}
{"id": "C94", "title": "Special values of f32", "statement": "Signed zeros, the NaN that intersected_line folds start with, and quotients that become infinite make no difference: on finite values (up to 2^126, and for lines to any finite place such as f32::MAX) the functions of geometry.rs compute the exact results, rounded after each operation, whichever zero max and min return. An inset rectangle never has a negative size or one that is NaN, whatever its arguments are. In the picture of a module with a table the only zeros printed are the two of the origin of the view box; all other numbers are positive. A line from a place that is NaN is said to meet every rectangle.", "quantifier": "all values of f32 including NaN, infinities and both zeros; all rectangles, points and lines; all modules", "why_tests_cant": "f32 has 2^32 values; rare combinations of subnormal differences and large quotients overflow to infinity", "anchors": ["src/geometry.rs: Rect::intersected_line", "src/geometry.rs: Rect::inset_by", "src/geometry.rs: Point::distance"]}
{"id": "C95", "title": "How much reading a source takes", "statement": "With n characters, b of them back quotes, the tokenizer reads at most 127n + 76 + 16nb characters: linear without back quotes and for sources that consist of tokens, never more than quadratic. No linear bound holds for all sources: an unclosed quoted name made of n escaped back quotes takes more than n\u00b2/2 reads. The parser of tokens always reads at most 33 tokens for each token, and 54 more, although it tries a definition before every relation and goes back. Conversely every character of a source and every token of an accepted module is read, and a name that is no keyword is read at least eight times.", "quantifier": "all sources, valid or not; all ways in which chumsky may treat errors", "why_tests_cant": "bounds the effort of all inputs; the worst case needs a source of a rare form, and quadratic effort goes unnoticed on short ones", "anchors": ["src/parser.rs: tokenizer", "src/parser.rs: parser", "src/parser.rs: skip_then_retry_until"]}
{"id": "C96", "title": "No special value arises anywhere", "statement": "With every number of layout.rs and renderer.rs an arbitrary f32 (NaN, infinities and both zeros included) and whichever zero max and min return, no NaN, no infinity and no negative zero arises as a coordinate, size, terminal port, node of the route graph or point of a path, for modules of up to 2^40 lines; the drawing is that of the rounding model, and the program does the same for inputs of up to 2^40 bytes. For inputs of up to 199000 bytes with a table it does what the exact model does, and for modules without tables (whose height is computed from f32::MIN) it always writes the same picture.", "quantifier": "all modules of up to 2^40 lines; all inputs of up to 2^40 bytes; all choices of zeros; all priority queues", "why_tests_cant": "NaN and signed zeros compare in unusual ways and would appear only for rare combinations of values; tests look at a few pictures", "anchors": ["src/layout.rs: place_nodes", "src/layout.rs: place_terminal_ports", "src/layout.rs: draw_edge_path", "src/renderer.rs: render", "src/main.rs: main"]}
{"id": "C97", "title": "The stored graphs and the stored heap behave as lists and bags", "statement": "However a petgraph graph is built by adding nodes and edges, its arrays hold what was added in order, and the iterator over the edges of a node, which follows the linked lists in the array, gives every edge with this node at one end exactly once, with the node as source and the other end as target: those starting there first, newest first, then the others, newest first. Adding succeeds exactly if there are at most 2^32-1 nodes and edges and the ends exist. std's heap, which moves a hole, leaves the same array as exchanging entries. into_mir never asks for a missing node, and for sources of at most 47 million characters into_mir, the routing and the rendering on these structures draw what the list model draws, without overflow of an index or an index out of bounds; with 32-bit floats and costs for sources of at most 199000 characters with a table.", "quantifier": "all sequences of operations on graphs; all arrays and entries of the heap; all modules; all sources within the stated sizes", "why_tests_cant": "the order in which linked lists yield edges decides ties in the search; tests see a few graphs, and never 2^32 nodes", "anchors": ["src/mir.rs: Document", "src/layout.rs: RouteGraph", "src/layout.rs: compute_shortest_path", "src/erd.rs: into_mir", "src/mir.rs: edge_endpoints"]}
{"id": "C98", "title": "The whole program in its most detailed form", "statement": "The program composed of arguments as bytes, chumsky's combinators, petgraph's arrays, std's heap with its hole, 32-bit path costs, rounded 32-bit floats, f32's printing and std's line buffer over a device that may be full, does exactly this: it panics at once if an argument it looks at is not Unicode; it fails if the source cannot be read or is not UTF-8; for sources of at most 199000 bytes it reports the errors of the model, panics without drawing if one cannot be printed, writes nothing and succeeds without a module, writes nothing and panics if a relation cannot be drawn, and otherwise writes as much of the text of the exact drawing as fits, panicking exactly if more than the last six bytes are lost. What chumsky does with errors, what overflow does and the version of std change nothing of this.", "quantifier": "all arguments, files, inputs of up to 199000 bytes and devices; all treatments of errors, overflows and escaping by the libraries", "why_tests_cant": "combines all layers: a test fixes one version of the libraries, one input and an output that takes everything", "anchors": ["src/main.rs: main", "src/parser.rs: parse", "src/erd.rs: into_mir", "src/layout.rs: draw_edge_path", "src/renderer.rs: render"]}
{"id": "C99", "title": "How much is written", "statement": "For a source of n bytes, n at most 199000, the program writes at most 178 + (294 + 5e) n + 40 n^2 bytes to standard output, where e bounds how much the svg crate lengthens a text; without relations at most 178 + (239 + 5e) n. More precisely, each table adds at most 630 bytes, each column 717, each relation 330 and 90 for every node of the route graph, and the names and types appear once each. The quadratic term is needed: for every N from 1 to 4500 there is a source of 44 N + 62 bytes for which more than 4 N^2 bytes are written.", "quantifier": "all sources of up to 199000 bytes, all arguments, devices and treatments of text by the libraries with a bounded lengthening", "why_tests_cant": "a bound for all sources: a test measures one output", "anchors": ["src/renderer.rs: render", "src/renderer.rs: draw_connections", "src/layout.rs: draw_edge_path", "src/main.rs: main"]}
{"id": "C100", "title": "How many steps the routing of relations takes", "statement": "Counting every round of every loop and iterator of draw_edge_path and of the search it calls, the routing of a module with T tables and R drawn relations takes at most 800 (T+R)^3 + 9600 (T+R)^2 steps (if the drawing is at most 10^9 units high), hence at most 30 n^3 + 1067 n^2 for a source of n characters, n at most 47000000. It takes at least (2 T + 4 R floor(T/3)) (T+1) steps for every module, so at least 2 T^2 even without relations. No loop is left out of the count: when routing succeeds with a route graph of v nodes and e edges, it takes at least 7 T + 4 R + P (6 T + 2) + v (v-1) / 2 + v (v+5) + 2 e steps, P the number of ports of the ends of all relations, besides those for choosing among pairs of ports and for the points of the paths. The bound is cubic for good reason: for every N there is a source of 44 N + 62 bytes, without errors, whose routing takes at least 12 N^3 steps, so no multiple of n^2 bounds the steps. Counting changes no result.", "quantifier": "all modules and sources, all lawful priority queues", "why_tests_cant": "a bound for all inputs, and a proof that no better one exists: a test measures one run", "anchors": ["src/layout.rs: draw_edge_path", "src/layout.rs: edge_junction_nodes_from_terminal_port", "src/layout.rs: remove_overlapped_junction_nodes", "src/layout.rs: connect_nearest_neighbor_edge_junctions", "src/layout.rs: compute_shortest_path"]}
{"id": "C101", "title": "The debug drawing on the machine", "statement": "Computed with all values of f32 (NaN, infinities and negative zero included), with 32-bit path costs and with numbers printed as f32, the text of the debug drawing (lines and arrows of the route graph, dots and numbers of its nodes, dots of the paths, numbers of the tables, after the ordinary drawing) of a module with a table whose picture is at most 2^22 units high is exactly the text of the exact model: no special value arises, no corner of an arrow and no place of a label is rounded, and no digit differs. That no special value arises holds for every module of at most 2^40 lines, with or without tables.", "quantifier": "all modules, all lawful priority queues, all choices of max and min between the two zeros", "why_tests_cant": "rounding and special values depend on coordinates that only occur in large diagrams, and the arrow computations have four directions for each edge of a graph that grows with the input", "anchors": ["src/renderer.rs: draw_debug_info", "src/renderer.rs: render", "src/main.rs: main (DEBUG)"]}
{"id": "C102", "title": "How many steps the whole program takes", "statement": "Counting also the rounds of all loops of into_mir, place_nodes, place_terminal_ports and render, drawing a module with E entries, T tables, K columns and R drawn relations takes at most E + 19 T + 11 K + R (1 + 3 (10 T + 16 R)) steps besides those of the routing (C100), and at least (2 T + 4 R floor(T/3)) (T+1). No loop is left out: a successful drawing whose lines have L points in all takes at least E + 17 T + 9 K + R + 2 L steps besides those of the routing. For a source of n <= 199000 bytes that contains a module, the characters and tokens read, the steps of drawing and the bytes written are together at most 30 n^3 + 1125 n^2 + (461 + 5 e) n + 308, where e says how much escaping lengthens texts; a source without a module is read with at most 16 n^2 + 160 n + 130 reads. The third power is needed. Counting changes no result.", "quantifier": "all modules and sources, all lawful priority queues, all error policies of the parser library", "why_tests_cant": "a bound on the whole effort for all inputs; a test measures one run", "anchors": ["src/erd.rs: Module::into_mir", "src/layout.rs: place_nodes", "src/layout.rs: place_terminal_ports", "src/renderer.rs: render", "src/main.rs: main"]}
{"id": "C103", "title": "Hash tables and their random keys do not matter", "statement": "std's HashMap, modelled with its buckets, control bytes, groups, triangular probing and growth, gives back under every key the value inserted last, for every hash function (also one that sends all keys to one hash), every width of a group that is a power of two, and every sequence of inserts. Its probing always ends, there is always an empty bucket, and it holds as many items as there are different keys, at most its capacity. The program with such tables for node_paths, terminal_ports and the three maps of every A* search, each with a hash function of its own, prints, reports and returns exactly what the program with association lists does: nothing depends on the keys std draws at random.", "quantifier": "all hash functions for each map, all group widths, all sequences of inserts; all modules, worlds and devices", "why_tests_cant": "a run has one set of random keys out of 2^128, and collisions of hashes are too rare to meet", "anchors": ["src/erd.rs: node_paths", "src/layout.rs: RouteGraph", "src/layout.rs: compute_shortest_path"]}
{"id": "C104", "title": "Comparisons of the heap: n\u00b2 log n at most", "statement": "Putting an entry into the A* heap of n entries takes at most floor(log2(n+1)) comparisons, exactly as many for an entry better than all others; taking the best one out takes at most 2 floor(log2(n-1)) and at least floor(log2(n-1))-1. One search in a route graph with E edges takes at most (6E+2) floor(log2(2E+1)) comparisons; routing a module with T tables and R drawn relations takes at most 6176 M^2 (floor(log2 M)+8) with M = T+R, and a source of n characters (n <= 47 000 000) at most 687 n^2 (floor(log2 n)+8). Counting does not change any result.", "quantifier": "all arrays and entries (also arrays that are no heaps), all graphs and costs, all modules of height <= 10^9, all sources of at most 47 000 000 characters", "why_tests_cant": "a logarithm cannot be told from a constant or a root on small inputs, and a worst case over all orders of pushes and pops cannot be sampled", "anchors": ["src/layout.rs: compute_shortest_path", "src/layout.rs: draw_edge_path"]}
{"id": "C105", "title": "A source can be edited block by block", "statement": "A source whose parts stand on lines of their own (the beginning up to the brace, blocks of entries with any blank lines, separators and comments, the end) is the module of the entries of its blocks, in order, without errors. So a block can be inserted, replaced, moved or left out and the module changes exactly there. Putting // in front of every line of any text whatsoever (also text that is no source) makes it a block without entries: the program writes the same bytes as for the source without it, and reports no error. A block has one reading, and whether a text can be read as given tokens is decided by the tokenizer alone.", "quantifier": "all modules, all blocks in every layout the grammar allows, all texts commented out, every arithmetic, all worlds", "why_tests_cant": "quantifies over all ways to lay out and to cut a source, and over all texts that could be commented out", "anchors": ["src/parser.rs: tokenizer", "src/parser.rs: parser", "src/main.rs: main"]}
{"id": "C106", "title": "Tables side by side are joined directly", "statement": "A relation between columns of two tables that stand next to each other in a row is drawn as one would by hand: out of the side facing the other table, to the middle of the gap, up or down there without turning back, and into the facing side of the other table; its length is the width of the gap plus the difference in height. On the same line, and between any two of their ends at the same height (also whole tables), it is a straight line. This holds in both directions, whatever other tables and relations there are. No drawn path comes twice through the same point. For whole tables of different heights it is false: the way over the top can be nearer.", "quantifier": "all modules up to the height bound of C33, all relations between neighbours, every lawful priority queue", "why_tests_cant": "the route is found by a shortest-path search on a graph that all tables and relations contribute to; a test shows it for one diagram", "anchors": ["src/layout.rs: draw_edge_path", "src/layout.rs: compute_shortest_path"]}
{"id": "C107", "title": "Tables one above the other are joined by a straight line", "statement": "A relation between a table, or its last column, and the table straight below it in the next row is drawn as a straight vertical line from the lower side of the one to the upper side of the other, without turning back and without leaving the vertical line, in both directions, whatever other tables and relations there are. Its length is 80 plus 35 for every line by which the upper table is shorter than the tallest of its row. For a column that is not the last it is false: the line goes around the side.", "quantifier": "all modules up to the height bound of C33, all relations between a table and the table straight below, every lawful priority queue", "why_tests_cant": "the route is found by a shortest-path search on a graph that all tables and relations contribute to; a test shows it for one diagram", "anchors": ["src/layout.rs: draw_edge_path", "src/layout.rs: compute_shortest_path"]}
{"id": "C108", "title": "Two columns of one table are joined beside it", "statement": "A relation between two different columns of the same table is drawn beside the table: out at one side, to the middle of the gap there, up or down without turning back, and in again at the same side; it never goes around the table or through it, whatever other tables and relations there are. Its length is 80 plus 35 for every line between the columns. Which side it is depends on the other tables: both occur. For a whole table and one of its columns it is false: the line can go over the top.", "quantifier": "all modules up to the height bound of C33, all relations between two columns of a table, every lawful priority queue", "why_tests_cant": "the route is found by a shortest-path search on a graph that all tables and relations contribute to; a test shows it for one diagram", "anchors": ["src/layout.rs: draw_edge_path", "src/layout.rs: compute_shortest_path"]}
{"id": "C109", "title": "Columns of tables in different rows are joined along the street between them", "statement": "A relation between two columns whose tables stand in neighbouring columns of the drawing and at most eight rows apart is drawn with two turns: out of the one table on the side of the other, to the middle of the gap, up or down past all rows between without turning back, and into the other table on the side of the first. If the tables stand one above the other, it leaves and enters at the same side in the same way, provided that they are at most seventeen rows apart and neither column is a last one, or at most three rows apart and not both are. The length is 80 plus the difference of the heights. It holds whatever other tables and relations there are.", "quantifier": "all modules up to the height bound of C33, all relations between two columns of tables in the same or in neighbouring columns of the drawing within the given number of rows, every lawful priority queue", "why_tests_cant": "the route is found by a shortest-path search on a graph that all tables and relations contribute to, with rounded weights whose error grows with the number of rows; a test shows it for one diagram", "anchors": ["src/layout.rs: draw_edge_path", "src/layout.rs: compute_shortest_path"]}
{"id": "C110", "title": "Shapes are built as told, and into_mir never panics", "statement": "Whatever setters of the builders of texts, badges, records and fields are called, in whatever order and however often, build succeeds; each part of the result is the value that was set last, or the default if it was never set. For every module, into_mir goes through all its unwraps (of builders, of the record just made and of the body) and through petgraph's check of the ends of edges without a panic.", "quantifier": "all sequences of setter calls for all four builders; all modules", "why_tests_cant": "the code unwraps at nine places for every table, column and relation; a test runs them for one module, and cannot show that no order or number of calls and no module makes one of them fail", "anchors": ["src/mir.rs: TextSpan, Badge, RecordShape, FieldShape (derive Builder)", "src/mir.rs: Badge::into_text_span, Document::body_mut, Document::add_edge", "src/erd.rs: Module::into_mir, EntityFieldKey::into_mir"]}
{"id": "C111", "title": "How long a line is", "statement": "Up to rounding (28 for each row of tables), the line of a relation between tables or columns of the same or neighbouring columns of the drawing is at most 80 plus the difference in height of their middles; between the first and the third column of the drawing it is at most as long as the way past the tables of the second column at any height that is 40 away from all of them (460 plus the two differences in height). No line is longer than 340 plus two and a quarter times the height of the drawing. A line between two columns of tables is at least as long as they are apart horizontally and vertically. No line, also between whole tables, is shorter than what it joins is apart, horizontally and vertically together.", "quantifier": "all modules of total height up to 10^9, all relations, all heights at which the middle column can be passed, all priority queues", "why_tests_cant": "the number of tables, rows and relations is unbounded; a test measures single diagrams and cannot exclude a detour in another one", "anchors": ["src/layout.rs: draw_edge_path (lines 443-499)", "src/layout.rs: compute_shortest_path", "src/layout.rs: edge_junction_nodes_around_shapes"]}
{"id": "C112", "title": "Lines along a street and straight lines stay where they are", "statement": "The line of a relation between two columns whose tables stand in neighbouring columns of the drawing, at most eight rows apart, covers exactly the points straight out of the facing sides of the two columns to the middle of the gap and those of the gap in between. So it covers the same points whatever tables and relations are added at the end of the module, although other points may be listed along it. The same holds for tables or columns side by side that are joined directly, and for a table, or its last column, and the table below it, whose line covers exactly the points straight between them, in either direction. Nor do the other relations of the module, or their order, matter to the lines along a street and straight lines.", "quantifier": "all modules of total height up to 10^9, all entries added, all such relations, all points of the plane, all priority queues", "why_tests_cant": "a test adds one table or relation; the claim is about all additions and all points of the line", "anchors": ["src/layout.rs: draw_edge_path (lines 443-499)", "src/layout.rs: compute_shortest_path", "src/renderer.rs: draw_edge_connection"]}
{"id": "C113", "title": "Additions hardly change how long a line is", "statement": "Whatever tables and relations are added at the end of a module, the line of a relation between two columns keeps its length up to rounding (28 for each row of tables) if their tables stand in neighbouring columns of the drawing. If they stand in the first and the third, the length changes by at most 80 and the height of the table that is then in the middle of the row of either of them, and if they stand in the same column, by at most 115, in both cases up to rounding. The lines of relations between whole tables in the same or in neighbouring columns change by at most half of the heights of both tables, 80 if it is the same column, and rounding. In any two modules in which two columns stand at the same places, the lines between them are equally long up to rounding if their tables stand in neighbouring columns of the drawing.", "quantifier": "all modules of total height up to 10^9, all entries added, all relations, all priority queues", "why_tests_cant": "additions can send a line another way (C92); a test sees one addition, the claim bounds what all of them can do", "anchors": ["src/layout.rs: draw_edge_path (lines 443-514)", "src/layout.rs: find_shortest_edges_path", "src/layout.rs: compute_shortest_path"]}
{"id": "C114", "title": "Where lines meet", "statement": "Take the lines of relations between columns whose tables stand in neighbouring columns of the drawing at most eight rows apart (along a street), and those between a table, or its last column, and the table below (straight). Two lines along streets have a point in common exactly if they are in the same gap and there is a height between the ends of the one that is also between the ends of the other; they then lie on top of each other in the middle of the gap at all such heights. Two straight lines below different tables have no point in common, and below the same table they are the same. A straight line and one along a street have no point in common. Nor have a straight line and one between two columns of a table, or lines between two columns of a table for tables in different rows.", "quantifier": "all modules of total height up to 10^9, all pairs of such relations, all points of the plane, all priority queues", "why_tests_cant": "the lines are found one by one by a shortest-path search over a graph that all tables and relations contribute to, and the claim is about all points of all pairs", "anchors": ["src/layout.rs: draw_edge_path (lines 443-499)", "src/layout.rs: compute_shortest_path", "src/renderer.rs: draw_edge_connection"]}
