# Formal model of seiren: design

seiren turns a text (`erd { … }`) into an SVG entity-relationship diagram.  `/repo` is the Rust source.  This
repository holds a Lean 4 model of it (`lean/Verif/Model`), specifications that do not mention the model's helpers
(`lean/Verif/Spec`), helper lemmas (`lean/Verif/Proofs`) and one theorem file per group of properties
(`lean/Verif/Props`).  `properties.jsonl` lists the properties, `MANIFEST.json` the theorems that settle them.

## Layout of the Lean project

| Module | Contents |
| --- | --- |
| `Model/Basic`, `Color`, `Geometry`, `Mir`, `Erd` | data types and functions of `color.rs`, `geometry.rs`, `mir.rs`, `erd.rs` |
| `Model/Lexer`, `Model/Parser` | `parser.rs`: tokenizer with error recovery, token parser |
| `Model/ParseErrors` | the same token parser with chumsky's errors: place, token found, tokens expected |
| `Model/Reports` | the errors of the tokenizer with place, character found and characters expected; the reports of `main.rs` as text |
| `Model/LexCombinators` | the tokenizer once more, composed of chumsky's combinators as in the source, for all details left open |
| `Model/ParsePolicy` | the token parser for every way of keeping errors of failed alternatives and of listing expected tokens |
| `Model/Route`, `Model/BinaryHeap` | route graph and petgraph's `astar`; std's `BinaryHeap` |
| `Model/Layout` | `layout.rs`: `place_nodes`, `place_terminal_ports`, `draw_edge_path` and its five helpers |
| `Model/Renderer`, `Model/Main` | `renderer.rs` up to the element tree, the pipeline of `main.rs` |
| `Model/SvgText` | the text written for an element tree (svg crate, `Display` of the numbers that occur) |
| `Model/Utf8`, `Model/Program` | UTF-8 as in std's `str`; `main` with arguments, files, standard input and output as bytes |
| `Model/Args` | `main` with arguments that need not be Unicode |
| `Model/Stdout` | std's line-buffered standard output on devices with limited room; `main` with errors while writing |
| `Model/Display` | `Display` of any `f32`; the text, and `main`, once more as computed on the machine |
| `Model/Debug` | `draw_debug_info` of `renderer.rs` and `evcxr.rs` |
| `Model/F32`, `Model/F32Draw` | the layout, routing and path data once more with every `f32` operation rounded |
| `Model/Ieee` | geometry.rs once more on all values of `f32`, with zeros, infinities and NaN |
| `Model/IeeeDraw` | layout.rs, the routing and renderer.rs once more on all values of `f32`, up to the bytes written by `main` |
| `Model/IeeeDebug` | `draw_debug_info` once more, rounded and on all values of `f32` |
| `Model/Storage` | petgraph's `Graph` as it lies in memory (arrays with linked lists of edges, 32-bit indices, its iterator) and std's heap with its hole; mir.rs, erd.rs `into_mir` and the routing once more on them |
| `Model/Whole` | main.rs once more, composed of the most detailed models: byte arguments, chumsky's combinators, petgraph's arrays, std's heap, 32-bit floats and costs, printing of `f32`, the line buffer |
| `Model/Reading` | the parsers of `Model/LexCombinators` and `Model/ParsePolicy` once more, with the number of characters and tokens they read |
| `Model/Steps` | `draw_edge_path` and the search once more, with the number of rounds of their loops |
| `Model/StepsWhole` | `into_mir`, `place_nodes`, `place_terminal_ports` and `render` once more, with the number of rounds of their loops |
| `Model/StepsHeap` | std's heap, the search and `draw_edge_path` once more, with the number of comparisons of two entries of the heap |
| `Model/HashTable` | std's `HashMap` (hashbrown): buckets, control bytes, groups, probing, growth; the hash function is a parameter |
| `Model/HashMaps` | the program with these tables in erd.rs, layout.rs and petgraph's `astar` |
| `Model/Builders` | the builders generated by `derive_builder` for the shapes of mir.rs, and erd.rs `into_mir` with each `unwrap` and petgraph's check of the ends of an edge |
| `Model/Machine` | the search once more with `u32` costs (wrapping or panicking addition) |
| `Spec/Geometry`, `Mir`, `Layout`, `Picture` | geometric, graph and picture notions used in statements |
| `Spec/Streets` | the road map along which relations are drawn, from the line numbers and connections alone |
| `Spec/Grammar`, `Spec/Lexical` | the grammar of `parser.rs:6-34` and the lexemes, as relations |
| `Spec/Skipped` | what the tokenizer skips, open quotations |
| `Spec/Utf8` | the bit patterns of UTF-8, shortest form |
| `Spec/Xml` | an XML reader, independent of the printer |
| `Spec/Tidy` | the layout of XML as text: order of attributes, line breaks, canonical printing |
| `Spec/Clearance` | the distance of points and segments from a rectangle |
| `Spec/Reports` | where a token goes wrong, names of tokens, enumerations |
| `Spec/Rename` | modules and drawings that differ only in names |
| `Proofs/*` | lemmas |
| `Props/*` | the theorems for C01, C02, …, each with a concrete case beside it |
| `Tests` | the repository's own tests, evaluated on the model by the kernel |

Every definition of the model cites the lines of `/repo` it models and names its simplifications.

## How the code is modelled

* **Strings** are lists of `Char` (Unicode scalar values, as in Rust).
* **Numbers**: an `f32` is an exact rational.  All layout coordinates are multiples of 1/2, so below 2^22 units nothing is
  rounded: C55 (placing) and C57 (the whole drawing) prove this against models in which every `f32` operation rounds to 24
  bits.  C61 proves that the `u32` path costs do not overflow.
* **Panics** are values of the model (`Except Panic`), so "does not panic" is a theorem, not an assumption.
* **Graphs**: petgraph indices are list positions; nothing is ever removed in this code.  `Model/Storage` has petgraph's arrays and linked
  lists; C97 proves that they give the same.
* **HashMap** is an association list, newest binding first; only `insert`, `get` are used, never iteration.  C103: std's hash table, with any
  hash function, does the same.
* **Loops** over collections are folds or structural recursions; loops without an obvious bound carry fuel, and the
  fuel is proved sufficient (it never changes a result).
* **Priority queue**: the search is parametric in the queue.  Theorems hold for every queue that satisfies
  `Queue.Lawful`, whatever it does with ties.  std's heap is modelled exactly and proved lawful.

## What is not modelled

* How ariadne prints a report (its frame with lines of the source, colours); the order in which a `HashSet` lists its members and the
  order of errors within one iteration of the tokenizer are left open (`Model/Reports`).
* Errors while writing are modelled in `Model/Stdout` only, for devices that take a limited number of bytes; `Model/Program` is the run
  where everything is taken (C82 compares the two).
* Infinities: C57 is proved for every rounding that is right up to `f32::MAX`, whatever it yields beyond, so overflow does not occur.
* NaN, infinities and negative zero are modelled in `Model/Ieee` (geometry.rs) and `Model/IeeeDraw` (everything drawn by `main`) and
  `Model/IeeeDebug` (the debug drawing); C94, C96 and C101 prove that they do not arise and make no difference.
* `Model/SvgText` prints multiples of 1/2 only (others do not occur for modules with a table, which is part of C64).  `Model/Display`
  prints every number of the format; C79 proves that both give the same text, and what is written for a module without tables.
* Indices are unbounded (petgraph's are `u32`, see `Model/Storage`), as are the `usize` counters of the code.  C88, C97: for sources of at
  most 47 million characters they fit.

## Trusted base

* Lean's kernel; the axioms `propext`, `Classical.choice`, `Quot.sound` (no others; checked by `vcheck`).
* That the model says what the code does.  Evidence: all tests of the repository hold on the model; in particular it
  reproduces, byte for byte, the three SVG files in `/repo/example` and the SVG in the integration test (`Verif/Tests`).
* The behaviour of the dependencies as described in the model: chumsky 0.8 combinators, their backtracking, recovery and
  merging of errors — of each single combinator (`Model/LexCombinators`, `Model/ParseErrors`), since C84 and `lModule_erase` prove that
  the other models (`Model/Lexer`, `Model/Reports`, `Model/Parser`) are their composition, and C84, C85 that some undocumented details do
  not matter —, petgraph 0.6 `Graph` and `astar` (`Model/Route`, `Model/Storage`), the code that derive_builder generates (`Model/Builders`),
  std's `BinaryHeap`, its `HashMap` (hashbrown 0.12, `Model/HashTable`; its hash function is a parameter) and other collections, its buffered standard output (`Model/Stdout`), derive_more `Display`, the text format of the svg crate (`Model/SvgText`; whether
  text is escaped is a parameter).  Their sources are not in the sandbox.
* For the single-precision models: IEEE 754 rounding to nearest even of `+ - * /` and `sqrt`, `powi(x, 2) = x * x`, and `Display` of
  `f32` as the shortest decimal number that is read back (`Model/Display`).

## Plan per property

Proof methods: "ind" = induction over the structure named; "inv" = invariant of a fold or loop.

| Id | Model functions | Method |
| --- | --- | --- |
| C01 | `Module.display`, `parse` | lexing lemma for sequences of lexemes (C04), then completeness of the parser (C09); ind on the module |
| C02 | `parse` | a printer in `Spec` that quotes and escapes every name; same route as C01 |
| C03 | `lexQuotedBody`, `lexQuotedIdent` | ind on the list of pieces |
| C04 | `tokenize` | relation "source = gap lexeme gap lexeme …"; ind on the list |
| C05 | `parseTokens`, `tokenize` | simulation between runs of separators; ind over the token list / over the lexer loop |
| C06 | `tokenize` | inv of the lexer loop |
| C07 | `tokenize` | fuel lemma, inv of the loop |
| C08 | `tokenize` | case analysis after `takeWhile`/`dropWhile` lemmas |
| C09 | `pModule` | soundness by ind on the parser's recursion, completeness by ind on the derivation |
| C10 | `pModule` | refuted by two witnesses; partial: sentences whose relation ends name fields; a documented sentence is accepted exactly if all relation ends name fields (counting dots, edges and braces) |
| C11 | — | from C09 |
| C12 | `parse` | case analysis |
| C13 | `parse` | refuted: any tokens may follow; general theorem that they are ignored |
| C14 | `tokenize` | C04 and inv of the loop |
| C15, C16, C17, C19 | `Module.intoMir` | inv of the fold over the entries |
| C18 | `Module.intoMir` | refuted by a witness; exactly the modules that lose nothing; writing definitions first loses nothing |
| C20–C23 | `placeNodes` | inv of the fold over records; C23 refuted for the empty module, proved otherwise |
| C24 | `placeNodes` | fold commutes with erasing positions |
| C25 | `placeNodes`, `intoMir` | prefix property of the fold |
| C26, C27 | `placeTerminalPorts` | inv of the fold; C27 refuted, and the exact effect of a second call proved |
| C28, C29 | `RouteGraph` | ind over operation sequences |
| C30 | `astar` | Dijkstra invariants of the loop, for every lawful queue |
| C31 | `BinHeap` | heap-order invariant of sift-up and sift-down |
| C32 | `drawEdgePath` | connectivity: the vertical lines x = 10, 390, 770, 1150 carry junctions that are linked without collision, the line y = 10 links them, and each port is linked to one of them |
| C33–C36 | `drawEdgePath` | C30 and an invariant of the construction of the graph |
| C37 | `drawEdgePath` | bounds of every node of the graph |
| C38 | `drawEdgePath` | refuted by a diagram with three tables; proved for at most two; partial: see the theorem |
| C39 | `drawEdgePath` | refuted by a pair of documents; proved for earlier documents of the same shape (same road map) |
| C40 | `drawModule` | refuted (turnaround, self relation); exact for at most three tables, and for any number unless a column of tables mixes whole tables and last columns as ends; partial: see the theorem |
| C41 | `drawModule` | refuted in general: no module with a self relation is drawn |
| C42–C44 | `render` | ind over the children and edges |
| C45, C46 | `pathData` | ind over the points |
| C47–C51 | `Geometry` | linear arithmetic; C47–C49 refuted in part, with the exact domain of validity |
| C52 | `WebColor.display` | decoding function |
| C53 | `runMain` | refuted: exact exit behaviour proved |
| C54 | `runMain` | case analysis |
| C55 | `Model/F32` | every intermediate value is a multiple of 2^-1 below 2^23 |
| C56 | `parse` | refuted by a witness; exactly when the text of a comment matters, for any text before it |
| C57 | `Model/F32Draw` | the rounded and the exact run agree step by step, below 2^22 |
| C58 | `drawModule` | the element list is computed and compared with a picture described independently of layout and renderer |
| C59, C60 | `Model/Debug` | ind over nodes and edges of the route graph |
| C61 | `Model/Machine` | bound on the costs in the queue, as an invariant of the search |
| C62, C63 | `Model/ParseErrors` | a viable-prefix automaton; errors of every parser described by the states it reaches |
| C64 | `Model/SvgText` | reader of `Spec/Xml` run on the printed text; ind on the tree |
| C65 | `stdoutText` | refuted by names with markup; partial: sources without quoted identifiers |
| C66 | `buildRouteGraph` | node list and neighbours compared with the road map of `Spec/Streets` |
| C67 | `drawEdgePath` | C36 carried over to the road map |
| C68 | `Reports` | C62, C63, and unique reading of enumerations |
| C69 | `lexReports` | inv of the lexer loop; case analysis of where a token goes wrong |
| C70 | `drawModule` | all stages commute with replacing field shapes; paths under an injective renaming |
| C71 | `Model/Debug`, `Model/SvgText` | as C64; the nodes of the route graph lie on a grid |
| C72 | `drawModule` | partial; the road map depends on the order of first mentions only (`eraseDups` of concatenations) |
| C73 | `drawEdgePath` | refuted by a tie; partial: routes of the road map can be reversed at the same cost |
| C74 | `drawEdgePath` | refuted by a symbolic argument for a module with 129 rows (the street with many half heights looks cheaper); partial: lengths are costs plus 1/2 for each segment of broken length, and multiples of 5/2, so a shorter route has at least five such segments fewer; such a segment ends at one of 28 points of a row, and a drawn path comes to no point twice |
| C75 | `drawEdgePath`, `astarLoop` | all places lie in a list of 10T + 16R points; fuel beyond that of C30 changes nothing |
| C76 | `Model/Program` | C77, C54, C65 put together |
| C77 | `Model/Utf8` | against the bit patterns of `Spec/Utf8`; ind on the bytes |
| C78 | `Model/Display` | ind on the exponents tried; rounding is monotone, so the two neighbouring multiples decide; texts without superfluous digits are compared digit by digit |
| C79 | `Model/Display` | C61, and all numbers of a picture are multiples of 1/2 below 2^23, which are printed exactly |
| C80 | `Model/SvgText` | opening brackets are counted in the text and in the tree read from it: none are left for the names; then reading is inverted |
| C81 | `drawModule` | C58, and ind on rows |
| C82 | `Model/Stdout` | cases of the buffered write (ind over the pieces); a text that is read stays read, with the same rest, if something is added |
| C83 | `Model/Render`, `Model/SvgText`, `Model/Cli` | two pictures shown by the same XML agree; tables, columns, badges and ends are read off; ends at one place meet |
| C84 | `Model/LexCombinators`, `Model/Lexer`, `Model/Reports` | one lemma per combinator: what it yields, where it fails; ind over the loops; the alternative errors inside back quotes are never the furthest |
| C85 | `Model/ParsePolicy`, `Model/ParseErrors` | simulation of parsers, combinator by combinator: alternatives are compared only as far as they are not behind what was consumed |
| C86 | `Model/Main` | from C32 (routing), C42 (the first edge that fails), C46 and C41 (which failure) |
| C87 | `Model/Program`, `Model/Display` | from C04, C05 (`collapse`), C77; output and exit status depend on the module only |
| C88 | `Model/Program`, `Model/Display` | every token takes a character, every entry its tokens (ind over the grammar); rows are at most as high as all their lines; then C75, C76, C79, C86 |
| C89 | `pathData`, `drawEdgePath` | refuted by a small module; partial: the heights of places in a row are sorted by their remainders modulo 35, from `place_cases`; ind over the path data |
| C90 | `Model/SvgText` | insertion sort of the attributes; ind on the tree, together with C64: the tree that is read, printed canonically, is the text |
| C91 | `drawEdgePath` | refuted by a small module; partial: each place is an end at the table or 40 away from it (`place_cases`); the heights of roads by their remainders modulo 35 |
| C92 | `drawEdgePath` | refuted by two small modules; partial: a corollary of C72, since the graph depends only on the sizes of tables and the ends mentioned |
| C93 | `runRaw` | cases on the arguments; C76, C77 |
| C94 | `Model/Ieee` | cases of the values, operation by operation; rounding is odd and monotone; quotients that become infinite lie outside [0, 1]; the numbers of a picture from C37, C58 |
| C95 | `Model/Reading` | reads are charged to the characters and tokens consumed; what is read without being consumed is bounded by the separators (tokens) and by a constant or a quoted name (characters); the lower bounds by induction on the number of escapes, and by counting that each character and token is read at least once |
| C96 | `Model/IeeeDraw` | every function on special values agrees with the rounding model on ordinary ones (C94 for geometry.rs); ranges of the coordinates are carried through the layout as an invariant; parametric list lemmas for the routing |
| C97 | `Model/Storage` | invariant of the linked lists (each holds the edges of its node, newest first); simulation of documents, route graphs and the search; the array with the hole filled is the array with entries exchanged; C88 for the sizes |
| C98 | `Model/Whole` | from C77, C93 (input), C84, C85 (reading), C97, C79 (drawing), C82 (output); only `ariadne`'s printing and the special values of `f32` (C96) are outside this model |
| C99 | `Model/SvgText`, `Model/Whole` | bound on the text of each element of the picture (C54), on the commands of a path (C45) and its points (C36, C75), on names by the lexical grammar (C04); the lengthening of texts by the crate `svg` is a parameter; conversely no road of a map whose relations end at sides passes the height above a full row without stopping, so routes between far rows have many points |
| C100 | `Model/Steps` | counting commutes with results; each loop is bounded by its list, the search by nodes and edges (C75); from below, the corners left of the tables and the crossings of each relation with the streets there lie in no table, so all tables are looked at for each of them; every loop has a lower bound too (`C100_every_loop`), so none is left out of the count |
| C101 | `Model/IeeeDebug` | the functions on all values agree with the rounded ones (as C96); all coordinates of the debug drawing are halves below 2^23, hence not rounded (as C57) and printed exactly (as C79) |
| C102 | `Model/StepsWhole` | counting commutes with results; placing keeps the children of all nodes, so the loops over them sum to the lines of the tables; paths are no longer than the route graph (C75), commands at most twice as many (C99); C95, C99 and C100 for the rest; from below, placing keeps kinds and children, so every loop is run in full (`C102_every_loop`) |
| C103 | `Model/HashTable`, `Model/HashMaps` | triangular numbers hit every residue of a power of two, so probing sees every bucket; invariant: the groups probed before an item are full; simulation of every function that uses a map |
| C104 | `Model/StepsHeap` | the position counted from one is halved on the way up and doubled on the way down; each edge end is pushed once (the budget of C100), so pushes and pops are at most 2E + 1; C75 bounds E |
| C105 | `Model/Lexer`, `Model/Parser`, `Model/Program` | layouts (C04) are closed under putting one below the other; the grammar's lists of entries are closed under joining with separators; a commented line is a gap; `C14` decides which texts are layouts |
| C106 | `Model/Layout`, `Spec/Streets`, `Spec/Neighbours` | every route costs at least its horizontal way plus its vertical one between the two heights, but for 12.5: in a row at most twelve heights of places are whole numbers and all others lie half-way between, so however a route is cut into pieces rounding loses at most that (`Proofs/Loss`); leaving the gap costs at least 300 more; inside the gap the only roads are the street in its middle and the ways to it, and a route without repetition runs along it in one direction |
| C107 | `Model/Layout`, `Spec/Streets` | heights in the middle of a column of tables are whole numbers, so nothing is lost by rounding there; a route that leaves it costs at least 80 more, and rounding saves at most 12.5 (as in C106); a route that costs no more than the difference in height never turns back |
| C108 | `Model/Layout`, `Spec/Streets`, `Spec/Neighbours` | as C106: a route that ends at another side, or leaves the gap, costs at least 100 more than the one along a side |
| C109 | `Model/Layout`, `Spec/Streets`, `Spec/Neighbours` | as C106 and C108: within `d + 1` rows rounding gains at most `12 d + 12.5`, and leaving the gap costs more |
| C110 | `Model/Builders` | induction on the sequence of calls; invariant of `into_mir`: the body and every node of a path are in the document |
| C111 | `Model/Layout` | an explicit route for every pair of ends, minimality (C67), count of rounded segments (C74); triangle inequality for the lower bound |
| C112 | `Model/Layout` | the shape of the path (C109, C106, C107); induction along its upright part for the set of points it covers |
| C113 | `Model/Layout` | the bounds of C111 in both drawings; where tables stand does not change, and near every table the middle column can be passed |
| C114 | `Model/Layout` | the points covered (C112, C108), and where the gaps and rows are |

Nothing in the list is out of reach of the model; refuted properties keep their full statement in `properties.jsonl`,
the refutation is a theorem (`…_refuted`), and the part that holds is a theorem named `…_partial`.

## Checks of the model

`lean/Verif/Tests.lean` evaluates the model, in the kernel, on all tests of the code: the unit tests of `color.rs`,
`geometry.rs` and `parser.rs`, and the integration tests with the files in `/repo/example`, whose SVG output agrees byte for
byte, including the routes (hence the tie-breaking of the search).

## Checks of the theorems

`seeded/LOG.jsonl` records deliberate bugs put into a copy of the model, one at a time, and which theorems then no longer
prove.  A bug that no theorem noticed led to a stronger theorem.  Entries marked `invalid` are edits after which the
model itself did not typecheck; they show nothing about the theorems, and corrected versions of them are in round 21.
Where `theorems_failed` names only lemmas, the theorems that rest on them are listed separately; that such a theorem could not be
proved in another way is not shown by the entry.

## Findings about the code

Claims one would expect and that the proofs refuted; each refutation is a theorem with a witness.

* C10: the implemented grammar is not the documented one: a relation end without a field needs a trailing dot
  (`a. o--o b.`), padding may be semicolons, and an empty entity may contain padding.
* C13: anything may follow the closing brace; it is silently ignored.
* C18: a relation written before the definitions of its ends is silently dropped.
* C23, C55: the view box of a module without tables has a negative height of about `-f32::MAX`, which is also rounded.
* C27: placing terminal ports twice adds every port twice.
* C38: a path may pass through a table, if there are at least three (with two it cannot: `C38_two_tables`; with three it passes only through the second: `C38_three_tables`; `C38_any_tables` says how it may pass in general).
* C39: an engine that has drawn another document before gives other paths, or panics.
* C40: a path through a table may turn back on itself, and the renderer panics on it.  This needs a column of tables in
  which relations end both at a whole table and at the last column of a table (`C40_any_columns`).
* C41: a relation of a table or column with itself, or of a table with its own last or middle line, panics.
* C47: `inset_by` does not keep the center once the size is clamped to zero.
* C48: `contains_point` includes the right and bottom edge and empty rectangles, against its documentation.
* C49: `intersects_line` depends on the order of the points: a vertical segment given upwards through a rectangle is taken to
  be inside it.
* C53: the exit status is success even if errors were reported and nothing was drawn.
* C56: after an unreadable character the text of a comment may be read as tokens, and a back quote in it may close a quotation that was
  opened before the comment, even if everything in between is read as tokens.
* C63: identifiers are never listed among the expected tokens.
* C68: an identifier is shown without its back quotes: for `` `int` `` where a type is expected, the report says that `int` is
  unexpected and that `int` is expected.
* C69: a back quote that is never closed is reported at the end of the source, or, if no token follows, not at all; the tokens behind it
  are read as if it were not there.
* C66: what a table hides depends on the direction.  Going up, no table is ever in the way; the ways up and down from the ends
  of relations pass through all tables; and the first candidate in a direction is taken without looking for tables in the way
  (`||` and `&&` in layout.rs:699-770 bind differently from what the layout suggests).
* C74: the drawn route need not be a shortest one: the search rounds the length of each segment down, and over 129 rows of tables
  the rounding outweighs a detour.
* C72, C73: the order of the relations and the direction of a relation may change the line along which it is drawn.
* C76: a byte order mark is not removed: it is reported as an unreadable character, and a comment right behind it is read as tokens.
* C82: `main` does not flush standard output: if the disk is full (or the pipe closed) within the last line `</svg>`, the program
  exits with success although the file is cut off.
* C89: where two corners of a path are 5 apart (from the middle of a table with an even number of lines to 40 below a shorter one),
  the curves of radius 6 overlap and the line between them goes back: the drawn path has a kink.
* C91: a line from the middle of a table with an even number of lines can run exactly along the lower side of another table.
* C92: one more relation can turn the straight line of another relation into one with four turns; one more table can move the turns of a line.
* C83: a relation to a whole table is drawn like a relation to its middle line; and quoted names can make two modules with
  different tables look exactly alike.
* C65: names are written into the SVG as they are, so a quoted name can break the document or inject elements (unless the svg
  crate escapes text; control characters break it in any case).
