import Verif.Model.SvgText
/-! # The tests of the repository, run on the model

Every assertion of the tests in /repo (src/color.rs, src/geometry.rs, src/mir.rs, src/parser.rs, tests/integration_test.rs with
the files in /repo/example) as an example that the kernel evaluates on the model.  They prove nothing in general; they are
evidence that the model is the code: the texts compared with are copied from /repo, and the SVG documents are compared
byte for byte.  Generated from /repo by a script; only the assertion of `point_distance` on 2.828… is left out, since distances
are modelled as the `u32` they are used as. -/

namespace Seiren

/-! ## src/color.rs:43-59 -/

example : (RGBColor.mk 255 255 255).display = c!"#FFFFFF" := by decide
example : (RGBColor.mk 0 0 0).display = c!"#000000" := by decide
example : (RGBColor.mk 73 123 145).display = c!"#497B91" := by decide
example : NamedColor.white.display = c!"white" := by decide
example : NamedColor.black.display = c!"black" := by decide

/-! ## src/geometry.rs:382-444 -/

example : Point.distanceU32 ⟨-1, -1⟩ ⟨1, 1⟩ = 2 := by decide +kernel
example : Point.distanceU32 ⟨-1, -1⟩ ⟨1, 1⟩ = Point.distanceU32 ⟨1, 1⟩ ⟨-1, -1⟩ := by decide +kernel
example : Point.distanceU32 Point.zero ⟨3, 0⟩ = 3 := by decide +kernel
example : Point.zero.orthogonalDirection ⟨-1, 0⟩ = .left := by decide +kernel
example : Point.zero.orthogonalDirection ⟨1, 0⟩ = .right := by decide +kernel
example : Point.zero.orthogonalDirection ⟨0, -1⟩ = .up := by decide +kernel
example : Point.zero.orthogonalDirection ⟨0, 1⟩ = .down := by decide +kernel
example : Rect.insetBy ⟨⟨10, 20⟩, ⟨50, 50⟩⟩ 0 0 = ⟨⟨10, 20⟩, ⟨50, 50⟩⟩ := by decide +kernel
example : Rect.insetBy ⟨⟨10, 20⟩, ⟨50, 50⟩⟩ 5 (-10) = ⟨⟨15, 10⟩, ⟨40, 70⟩⟩ := by decide +kernel
example : Rect.insetBy ⟨⟨10, 20⟩, ⟨50, 50⟩⟩ 30 30 = ⟨⟨40, 50⟩, Size.zero⟩ := by decide +kernel
example : Rect.insetBy ⟨⟨f32Min, f32Min⟩, ⟨1, 1⟩⟩ f32Max f32Max = Rect.zero := by decide +kernel
example : Rect.containsPoint ⟨⟨10, 20⟩, ⟨50, 50⟩⟩ ⟨10, 20⟩ = true := by decide +kernel
example : Rect.containsPoint ⟨⟨10, 20⟩, ⟨50, 50⟩⟩ ⟨60, 70⟩ = true := by decide +kernel

/-! ## src/geometry.rs:446-805 `rect_intersects_line` -/

example : Rect.intersectsLine ⟨⟨15, 5⟩, ⟨30, 30⟩⟩ ⟨5, 10⟩ ⟨10, 10⟩ = false := by decide +kernel
example : Rect.intersectsLine ⟨⟨15, 5⟩, ⟨30, 30⟩⟩ ⟨-1, 5⟩ ⟨-1, 10⟩ = false := by decide +kernel
example : Rect.intersectsLine ⟨⟨15, 5⟩, ⟨30, 30⟩⟩ ⟨20, 10⟩ ⟨25, 30⟩ = false := by decide +kernel
example : Rect.intersectsLine ⟨⟨15, 5⟩, ⟨30, 30⟩⟩ ⟨20, 30⟩ ⟨10, 5⟩ = true := by decide +kernel
example : Rect.intersectsLine ⟨⟨15, 5⟩, ⟨30, 30⟩⟩ ⟨15, 5⟩ ⟨5, 5⟩ = true := by decide +kernel
example : Rect.intersectsLine ⟨⟨15, 5⟩, ⟨30, 30⟩⟩ ⟨15, 15⟩ ⟨5, 15⟩ = true := by decide +kernel
example : Rect.intersectsLine ⟨⟨15, 5⟩, ⟨30, 30⟩⟩ ⟨15, 35⟩ ⟨5, 50⟩ = true := by decide +kernel
example : Rect.intersectsLine ⟨⟨15, 5⟩, ⟨30, 30⟩⟩ ⟨15, 35⟩ ⟨15, 50⟩ = true := by decide +kernel
example : Rect.intersectsLine ⟨⟨15, 5⟩, ⟨30, 30⟩⟩ ⟨20, 35⟩ ⟨20, 50⟩ = true := by decide +kernel
example : Rect.intersectsLine ⟨⟨15, 5⟩, ⟨30, 30⟩⟩ ⟨15, 35⟩ ⟨20, 50⟩ = true := by decide +kernel
example : Rect.intersectsLine ⟨⟨15, 5⟩, ⟨30, 30⟩⟩ ⟨10, 5⟩ ⟨20, 30⟩ = true := by decide +kernel
example : Rect.intersectsLine ⟨⟨15, 5⟩, ⟨30, 30⟩⟩ ⟨5, 5⟩ ⟨15, 5⟩ = true := by decide +kernel
example : Rect.intersectsLine ⟨⟨15, 5⟩, ⟨30, 30⟩⟩ ⟨5, 15⟩ ⟨15, 15⟩ = true := by decide +kernel
example : Rect.intersectsLine ⟨⟨15, 5⟩, ⟨30, 30⟩⟩ ⟨5, 50⟩ ⟨15, 35⟩ = true := by decide +kernel
example : Rect.intersectsLine ⟨⟨15, 5⟩, ⟨30, 30⟩⟩ ⟨15, 50⟩ ⟨15, 35⟩ = true := by decide +kernel
example : Rect.intersectsLine ⟨⟨15, 5⟩, ⟨30, 30⟩⟩ ⟨20, 50⟩ ⟨20, 35⟩ = true := by decide +kernel
example : Rect.intersectsLine ⟨⟨15, 5⟩, ⟨30, 30⟩⟩ ⟨20, 50⟩ ⟨15, 35⟩ = true := by decide +kernel
example : Rect.intersectsLine ⟨⟨15, 5⟩, ⟨30, 30⟩⟩ ⟨5, 30⟩ ⟨20, 0⟩ = true := by decide +kernel
example : Rect.intersectsLine ⟨⟨15, 5⟩, ⟨30, 30⟩⟩ ⟨20, 0⟩ ⟨5, 30⟩ = true := by decide +kernel
example : Rect.intersectsLine ⟨⟨15, 5⟩, ⟨30, 30⟩⟩ ⟨15, 20⟩ ⟨45, 20⟩ = true := by decide +kernel
example : Rect.intersectsLine ⟨⟨15, 5⟩, ⟨30, 30⟩⟩ ⟨45, 20⟩ ⟨15, 20⟩ = true := by decide +kernel
example : Rect.intersectsLine ⟨⟨15, 5⟩, ⟨30, 30⟩⟩ ⟨15, 5⟩ ⟨15, 35⟩ = true := by decide +kernel
example : Rect.intersectsLine ⟨⟨15, 5⟩, ⟨30, 30⟩⟩ ⟨15, 35⟩ ⟨15, 5⟩ = true := by decide +kernel
example : Rect.intersectsLine ⟨⟨15, 5⟩, ⟨30, 30⟩⟩ ⟨15, 5⟩ ⟨45, 35⟩ = true := by decide +kernel
example : Rect.intersectsLine ⟨⟨15, 5⟩, ⟨30, 30⟩⟩ ⟨45, 35⟩ ⟨15, 5⟩ = true := by decide +kernel

/-! ## src/geometry.rs:807-926 `rect_intersected_line` -/

example : Rect.intersectedLine ⟨⟨15, 5⟩, ⟨30, 30⟩⟩ ⟨20, 50⟩ ⟨15, 35⟩ = some (⟨15, 35⟩, ⟨15, 35⟩) := by decide +kernel
example : Rect.intersectedLine ⟨⟨15, 5⟩, ⟨30, 30⟩⟩ ⟨10, 5⟩ ⟨20, 30⟩ = some (⟨15, 35/2⟩, ⟨20, 30⟩) := by decide +kernel
example : Rect.intersectedLine ⟨⟨15, 5⟩, ⟨30, 30⟩⟩ ⟨15, 20⟩ ⟨45, 20⟩ = some (⟨15, 20⟩, ⟨45, 20⟩) := by decide +kernel
example : Rect.intersectedLine ⟨⟨15, 5⟩, ⟨30, 30⟩⟩ ⟨15, 5⟩ ⟨15, 35⟩ = some (⟨15, 5⟩, ⟨15, 35⟩) := by decide +kernel
example : Rect.intersectedLine ⟨⟨15, 5⟩, ⟨30, 30⟩⟩ ⟨15, 5⟩ ⟨45, 35⟩ = some (⟨15, 5⟩, ⟨45, 35⟩) := by decide +kernel

/-! ## src/parser.rs:301-361 -/

set_option maxRecDepth 100000 in
example : (let r := parse c!"erd G {\nusers {\n    id     int PK\n    `uuid` uuid\n    `text` text; about_html text\n}\nposts {\n    id         int PK\n    title      text\n    body       text\n    created_by int FK\n}\nusers.id o--o posts.created_by\n}"
    (r.1.map Module.display, r.2.1.length, r.2.2.length)) =
    (some c!"erd G {\n    users { id int PK; uuid uuid; text text; about_html text }\n    posts { id int PK; title text; body text; created_by int FK }\n    users.id o--o posts.created_by\n}", 0, 0) := by decide +kernel

set_option maxRecDepth 100000 in
example : (let r := parse c!" // define a new ERD module\nerd\t//line comment here\n  ERD // name \"G\"\n{ // start module definition\n    table1 // A\n    // B\n    { // C\n        // `id` column\n        id int PK // primary key\n    // end\n    } // / table 1\n\n    // table 2\n    table2 {\n        id int PK\n        table1_id int FK\n    }\n\n    // define a new edge\n    table1.id // start node\n    // o\n    o--o // path\n    // o\n    table2.table1_id // end node\n    // end of module\n} // eof"
    (r.1.map Module.display, r.2.1.length, r.2.2.length)) =
    (some c!"erd ERD {\n    table1 { id int PK }\n    table2 { id int PK; table1_id int FK }\n    table1.id o--o table2.table1_id\n}", 0, 0) := by decide +kernel

/-! ## tests/integration_test.rs:11-31 `empty_doc` (no view box) -/

/-- The calls of the integration tests that draw a module without a view box. -/
def drawnText (m : Module) : Option Str :=
  match drawEdgePath BinHeap.queue (placeTerminalPorts (placeNodes m.intoMir).1) RouteGraph.new with
  | .error _ => none
  | .ok (doc, _) => match render none doc with
    | .error _ => none
    | .ok e => some (svgText id e)

set_option maxRecDepth 100000 in
example : (match render none (placeNodes (Module.mk none []).intoMir).1 with
    | .error _ => none
    | .ok e => some (svgText id e)) = some c!"<svg xmlns=\"http://www.w3.org/2000/svg\">\n<rect fill=\"#1C1C1C\" height=\"100%\" width=\"100%\"/>\n<defs/>\n</svg>" := by decide +kernel

/-! ## tests/integration_test.rs:33-234 `demo_svg` -/

/-- tests/integration_test.rs:33-97 -/
def demoModule : Module := ⟨none, [
  .definition ⟨c!"users", [⟨c!"id", .int, some .primaryKey⟩, ⟨c!"uuid", .uuid, none⟩, ⟨c!"email", .text, none⟩,
    ⟨c!"about_html", .text, none⟩, ⟨c!"created_at", .timestamp, none⟩]⟩,
  .definition ⟨c!"posts", [⟨c!"id", .int, some .primaryKey⟩, ⟨c!"uuid", .uuid, none⟩, ⟨c!"title", .text, none⟩,
    ⟨c!"content", .text, none⟩, ⟨c!"created_at", .timestamp, none⟩, ⟨c!"created_by", .int, some .foreignKey⟩]⟩,
  .relation ⟨.field c!"posts" c!"created_by", .field c!"users" c!"id"⟩]⟩

set_option maxRecDepth 1000000 in
example : drawnText demoModule = some c!"<svg xmlns=\"http://www.w3.org/2000/svg\">\n<rect fill=\"#1C1C1C\" height=\"100%\" width=\"100%\"/>\n<defs>\n<clipPath id=\"record-clip-path-0\">\n<rect height=\"210\" rx=\"6\" ry=\"6\" width=\"300\" x=\"50\" y=\"50\"/>\n</clipPath>\n<clipPath id=\"record-clip-path-1\">\n<rect height=\"245\" rx=\"6\" ry=\"6\" width=\"300\" x=\"430\" y=\"50\"/>\n</clipPath>\n</defs>\n<rect fill=\"#212121\" height=\"210\" rx=\"6\" ry=\"6\" stroke=\"#494949\" width=\"300\" x=\"50\" y=\"50\"/>\n<rect clip-path=\"url(#record-clip-path-0)\" fill=\"#494949\" height=\"35\" width=\"300\" x=\"50\" y=\"50\"/>\n<text dominant-baseline=\"middle\" fill=\"white\" font-family=\"Monaco,Lucida Console,monospace\" font-weight=\"bold\" text-anchor=\"start\" x=\"62\" y=\"67.5\">\nusers\n</text>\n<line stroke=\"#494949\" stroke-width=\"1\" x1=\"50\" x2=\"350\" y1=\"85\" y2=\"85\"/>\n<text dominant-baseline=\"middle\" fill=\"white\" font-family=\"Courier New,monospace\" font-weight=\"lighter\" text-anchor=\"start\" x=\"62\" y=\"102.5\">\nid\n</text>\n<text dominant-baseline=\"middle\" fill=\"#ECC700\" font-family=\"Courier New,monospace\" font-size=\"small\" font-weight=\"lighter\" text-anchor=\"end\" x=\"290\" y=\"102.5\">\nint\n</text>\n<circle cx=\"326.5\" cy=\"102.5\" fill=\"#373737\" r=\"11.5\"/>\n<text dominant-baseline=\"middle\" fill=\"white\" font-family=\"Trebuchet MS,sans-serif\" font-size=\"xx-small\" text-anchor=\"middle\" x=\"326.5\" y=\"102.5\">\nPK\n</text>\n<line stroke=\"#494949\" stroke-width=\"1\" x1=\"50\" x2=\"350\" y1=\"120\" y2=\"120\"/>\n<text dominant-baseline=\"middle\" fill=\"white\" font-family=\"Courier New,monospace\" font-weight=\"lighter\" text-anchor=\"start\" x=\"62\" y=\"137.5\">\nuuid\n</text>\n<text dominant-baseline=\"middle\" fill=\"#ECC700\" font-family=\"Courier New,monospace\" font-size=\"small\" font-weight=\"lighter\" text-anchor=\"end\" x=\"290\" y=\"137.5\">\nuuid\n</text>\n<line stroke=\"#494949\" stroke-width=\"1\" x1=\"50\" x2=\"350\" y1=\"155\" y2=\"155\"/>\n<text dominant-baseline=\"middle\" fill=\"white\" font-family=\"Courier New,monospace\" font-weight=\"lighter\" text-anchor=\"start\" x=\"62\" y=\"172.5\">\nemail\n</text>\n<text dominant-baseline=\"middle\" fill=\"#D66905\" font-family=\"Courier New,monospace\" font-size=\"small\" font-weight=\"lighter\" text-anchor=\"end\" x=\"290\" y=\"172.5\">\ntext\n</text>\n<line stroke=\"#494949\" stroke-width=\"1\" x1=\"50\" x2=\"350\" y1=\"190\" y2=\"190\"/>\n<text dominant-baseline=\"middle\" fill=\"white\" font-family=\"Courier New,monospace\" font-weight=\"lighter\" text-anchor=\"start\" x=\"62\" y=\"207.5\">\nabout_html\n</text>\n<text dominant-baseline=\"middle\" fill=\"#D66905\" font-family=\"Courier New,monospace\" font-size=\"small\" font-weight=\"lighter\" text-anchor=\"end\" x=\"290\" y=\"207.5\">\ntext\n</text>\n<line stroke=\"#494949\" stroke-width=\"1\" x1=\"50\" x2=\"350\" y1=\"225\" y2=\"225\"/>\n<text dominant-baseline=\"middle\" fill=\"white\" font-family=\"Courier New,monospace\" font-weight=\"lighter\" text-anchor=\"start\" x=\"62\" y=\"242.5\">\ncreated_at\n</text>\n<text dominant-baseline=\"middle\" fill=\"#06B697\" font-family=\"Courier New,monospace\" font-size=\"small\" font-weight=\"lighter\" text-anchor=\"end\" x=\"290\" y=\"242.5\">\ntimestamp\n</text>\n<rect fill=\"#212121\" height=\"245\" rx=\"6\" ry=\"6\" stroke=\"#494949\" width=\"300\" x=\"430\" y=\"50\"/>\n<rect clip-path=\"url(#record-clip-path-1)\" fill=\"#494949\" height=\"35\" width=\"300\" x=\"430\" y=\"50\"/>\n<text dominant-baseline=\"middle\" fill=\"white\" font-family=\"Monaco,Lucida Console,monospace\" font-weight=\"bold\" text-anchor=\"start\" x=\"442\" y=\"67.5\">\nposts\n</text>\n<line stroke=\"#494949\" stroke-width=\"1\" x1=\"430\" x2=\"730\" y1=\"85\" y2=\"85\"/>\n<text dominant-baseline=\"middle\" fill=\"white\" font-family=\"Courier New,monospace\" font-weight=\"lighter\" text-anchor=\"start\" x=\"442\" y=\"102.5\">\nid\n</text>\n<text dominant-baseline=\"middle\" fill=\"#ECC700\" font-family=\"Courier New,monospace\" font-size=\"small\" font-weight=\"lighter\" text-anchor=\"end\" x=\"670\" y=\"102.5\">\nint\n</text>\n<circle cx=\"706.5\" cy=\"102.5\" fill=\"#373737\" r=\"11.5\"/>\n<text dominant-baseline=\"middle\" fill=\"white\" font-family=\"Trebuchet MS,sans-serif\" font-size=\"xx-small\" text-anchor=\"middle\" x=\"706.5\" y=\"102.5\">\nPK\n</text>\n<line stroke=\"#494949\" stroke-width=\"1\" x1=\"430\" x2=\"730\" y1=\"120\" y2=\"120\"/>\n<text dominant-baseline=\"middle\" fill=\"white\" font-family=\"Courier New,monospace\" font-weight=\"lighter\" text-anchor=\"start\" x=\"442\" y=\"137.5\">\nuuid\n</text>\n<text dominant-baseline=\"middle\" fill=\"#ECC700\" font-family=\"Courier New,monospace\" font-size=\"small\" font-weight=\"lighter\" text-anchor=\"end\" x=\"670\" y=\"137.5\">\nuuid\n</text>\n<line stroke=\"#494949\" stroke-width=\"1\" x1=\"430\" x2=\"730\" y1=\"155\" y2=\"155\"/>\n<text dominant-baseline=\"middle\" fill=\"white\" font-family=\"Courier New,monospace\" font-weight=\"lighter\" text-anchor=\"start\" x=\"442\" y=\"172.5\">\ntitle\n</text>\n<text dominant-baseline=\"middle\" fill=\"#D66905\" font-family=\"Courier New,monospace\" font-size=\"small\" font-weight=\"lighter\" text-anchor=\"end\" x=\"670\" y=\"172.5\">\ntext\n</text>\n<line stroke=\"#494949\" stroke-width=\"1\" x1=\"430\" x2=\"730\" y1=\"190\" y2=\"190\"/>\n<text dominant-baseline=\"middle\" fill=\"white\" font-family=\"Courier New,monospace\" font-weight=\"lighter\" text-anchor=\"start\" x=\"442\" y=\"207.5\">\ncontent\n</text>\n<text dominant-baseline=\"middle\" fill=\"#D66905\" font-family=\"Courier New,monospace\" font-size=\"small\" font-weight=\"lighter\" text-anchor=\"end\" x=\"670\" y=\"207.5\">\ntext\n</text>\n<line stroke=\"#494949\" stroke-width=\"1\" x1=\"430\" x2=\"730\" y1=\"225\" y2=\"225\"/>\n<text dominant-baseline=\"middle\" fill=\"white\" font-family=\"Courier New,monospace\" font-weight=\"lighter\" text-anchor=\"start\" x=\"442\" y=\"242.5\">\ncreated_at\n</text>\n<text dominant-baseline=\"middle\" fill=\"#06B697\" font-family=\"Courier New,monospace\" font-size=\"small\" font-weight=\"lighter\" text-anchor=\"end\" x=\"670\" y=\"242.5\">\ntimestamp\n</text>\n<line stroke=\"#494949\" stroke-width=\"1\" x1=\"430\" x2=\"730\" y1=\"260\" y2=\"260\"/>\n<text dominant-baseline=\"middle\" fill=\"white\" font-family=\"Courier New,monospace\" font-weight=\"lighter\" text-anchor=\"start\" x=\"442\" y=\"277.5\">\ncreated_by\n</text>\n<text dominant-baseline=\"middle\" fill=\"#ECC700\" font-family=\"Courier New,monospace\" font-size=\"small\" font-weight=\"lighter\" text-anchor=\"end\" x=\"670\" y=\"277.5\">\nint\n</text>\n<circle cx=\"706.5\" cy=\"277.5\" fill=\"#202937\" r=\"11.5\"/>\n<text dominant-baseline=\"middle\" fill=\"#1170FB\" font-family=\"Trebuchet MS,sans-serif\" font-size=\"xx-small\" text-anchor=\"middle\" x=\"706.5\" y=\"277.5\">\nFK\n</text>\n<path d=\"M430 277.5 L396 277.5 Q390 277.5 390 271.5 L390 108.5 Q390 102.5 384 102.5 L350 102.5\" fill=\"transparent\" stroke=\"#888888\" stroke-width=\"1.5\"/>\n<circle cx=\"430\" cy=\"277.5\" fill=\"#1C1C1C\" r=\"4\" stroke=\"#888888\" stroke-width=\"1.5\"/>\n<circle cx=\"350\" cy=\"102.5\" fill=\"#1C1C1C\" r=\"4\" stroke=\"#888888\" stroke-width=\"1.5\"/>\n</svg>" := by decide +kernel

/-! ## tests/integration_test.rs:236-277 `example_files` -/

/-- example/posts.seiren -/
def postsSource : Str :=
  c!"// Define an ERD module that is named \"posts\"\nerd posts {\n  users {\n    id         int PK\n    `uuid`     uuid\n    email      text\n    `text`     text\n    about_html text\n    created_at timestamp\n  }\n  \n  posts {\n    id         int PK\n    `uuid`     uuid\n    title      text\n    content    text\n    created_at timestamp\n    created_by int FK\n  }\n\n  // Edges\n  users.id o--o posts.created_by\n}"

set_option maxRecDepth 1000000 in
example : (parse postsSource).2 = ([], []) ∧
    stdoutText BinHeap.queue id postsSource = some c!"<svg viewBox=\"0, 0, 1160, 345\" xmlns=\"http://www.w3.org/2000/svg\">\n<rect fill=\"#1C1C1C\" height=\"100%\" width=\"100%\"/>\n<defs>\n<clipPath id=\"record-clip-path-0\">\n<rect height=\"245\" rx=\"6\" ry=\"6\" width=\"300\" x=\"50\" y=\"50\"/>\n</clipPath>\n<clipPath id=\"record-clip-path-1\">\n<rect height=\"245\" rx=\"6\" ry=\"6\" width=\"300\" x=\"430\" y=\"50\"/>\n</clipPath>\n</defs>\n<rect fill=\"#212121\" height=\"245\" rx=\"6\" ry=\"6\" stroke=\"#494949\" width=\"300\" x=\"50\" y=\"50\"/>\n<rect clip-path=\"url(#record-clip-path-0)\" fill=\"#494949\" height=\"35\" width=\"300\" x=\"50\" y=\"50\"/>\n<text dominant-baseline=\"middle\" fill=\"white\" font-family=\"Monaco,Lucida Console,monospace\" font-weight=\"bold\" text-anchor=\"start\" x=\"62\" y=\"67.5\">\nusers\n</text>\n<line stroke=\"#494949\" stroke-width=\"1\" x1=\"50\" x2=\"350\" y1=\"85\" y2=\"85\"/>\n<text dominant-baseline=\"middle\" fill=\"white\" font-family=\"Courier New,monospace\" font-weight=\"lighter\" text-anchor=\"start\" x=\"62\" y=\"102.5\">\nid\n</text>\n<text dominant-baseline=\"middle\" fill=\"#ECC700\" font-family=\"Courier New,monospace\" font-size=\"small\" font-weight=\"lighter\" text-anchor=\"end\" x=\"290\" y=\"102.5\">\nint\n</text>\n<circle cx=\"326.5\" cy=\"102.5\" fill=\"#373737\" r=\"11.5\"/>\n<text dominant-baseline=\"middle\" fill=\"white\" font-family=\"Trebuchet MS,sans-serif\" font-size=\"xx-small\" text-anchor=\"middle\" x=\"326.5\" y=\"102.5\">\nPK\n</text>\n<line stroke=\"#494949\" stroke-width=\"1\" x1=\"50\" x2=\"350\" y1=\"120\" y2=\"120\"/>\n<text dominant-baseline=\"middle\" fill=\"white\" font-family=\"Courier New,monospace\" font-weight=\"lighter\" text-anchor=\"start\" x=\"62\" y=\"137.5\">\nuuid\n</text>\n<text dominant-baseline=\"middle\" fill=\"#ECC700\" font-family=\"Courier New,monospace\" font-size=\"small\" font-weight=\"lighter\" text-anchor=\"end\" x=\"290\" y=\"137.5\">\nuuid\n</text>\n<line stroke=\"#494949\" stroke-width=\"1\" x1=\"50\" x2=\"350\" y1=\"155\" y2=\"155\"/>\n<text dominant-baseline=\"middle\" fill=\"white\" font-family=\"Courier New,monospace\" font-weight=\"lighter\" text-anchor=\"start\" x=\"62\" y=\"172.5\">\nemail\n</text>\n<text dominant-baseline=\"middle\" fill=\"#D66905\" font-family=\"Courier New,monospace\" font-size=\"small\" font-weight=\"lighter\" text-anchor=\"end\" x=\"290\" y=\"172.5\">\ntext\n</text>\n<line stroke=\"#494949\" stroke-width=\"1\" x1=\"50\" x2=\"350\" y1=\"190\" y2=\"190\"/>\n<text dominant-baseline=\"middle\" fill=\"white\" font-family=\"Courier New,monospace\" font-weight=\"lighter\" text-anchor=\"start\" x=\"62\" y=\"207.5\">\ntext\n</text>\n<text dominant-baseline=\"middle\" fill=\"#D66905\" font-family=\"Courier New,monospace\" font-size=\"small\" font-weight=\"lighter\" text-anchor=\"end\" x=\"290\" y=\"207.5\">\ntext\n</text>\n<line stroke=\"#494949\" stroke-width=\"1\" x1=\"50\" x2=\"350\" y1=\"225\" y2=\"225\"/>\n<text dominant-baseline=\"middle\" fill=\"white\" font-family=\"Courier New,monospace\" font-weight=\"lighter\" text-anchor=\"start\" x=\"62\" y=\"242.5\">\nabout_html\n</text>\n<text dominant-baseline=\"middle\" fill=\"#D66905\" font-family=\"Courier New,monospace\" font-size=\"small\" font-weight=\"lighter\" text-anchor=\"end\" x=\"290\" y=\"242.5\">\ntext\n</text>\n<line stroke=\"#494949\" stroke-width=\"1\" x1=\"50\" x2=\"350\" y1=\"260\" y2=\"260\"/>\n<text dominant-baseline=\"middle\" fill=\"white\" font-family=\"Courier New,monospace\" font-weight=\"lighter\" text-anchor=\"start\" x=\"62\" y=\"277.5\">\ncreated_at\n</text>\n<text dominant-baseline=\"middle\" fill=\"#06B697\" font-family=\"Courier New,monospace\" font-size=\"small\" font-weight=\"lighter\" text-anchor=\"end\" x=\"290\" y=\"277.5\">\ntimestamp\n</text>\n<rect fill=\"#212121\" height=\"245\" rx=\"6\" ry=\"6\" stroke=\"#494949\" width=\"300\" x=\"430\" y=\"50\"/>\n<rect clip-path=\"url(#record-clip-path-1)\" fill=\"#494949\" height=\"35\" width=\"300\" x=\"430\" y=\"50\"/>\n<text dominant-baseline=\"middle\" fill=\"white\" font-family=\"Monaco,Lucida Console,monospace\" font-weight=\"bold\" text-anchor=\"start\" x=\"442\" y=\"67.5\">\nposts\n</text>\n<line stroke=\"#494949\" stroke-width=\"1\" x1=\"430\" x2=\"730\" y1=\"85\" y2=\"85\"/>\n<text dominant-baseline=\"middle\" fill=\"white\" font-family=\"Courier New,monospace\" font-weight=\"lighter\" text-anchor=\"start\" x=\"442\" y=\"102.5\">\nid\n</text>\n<text dominant-baseline=\"middle\" fill=\"#ECC700\" font-family=\"Courier New,monospace\" font-size=\"small\" font-weight=\"lighter\" text-anchor=\"end\" x=\"670\" y=\"102.5\">\nint\n</text>\n<circle cx=\"706.5\" cy=\"102.5\" fill=\"#373737\" r=\"11.5\"/>\n<text dominant-baseline=\"middle\" fill=\"white\" font-family=\"Trebuchet MS,sans-serif\" font-size=\"xx-small\" text-anchor=\"middle\" x=\"706.5\" y=\"102.5\">\nPK\n</text>\n<line stroke=\"#494949\" stroke-width=\"1\" x1=\"430\" x2=\"730\" y1=\"120\" y2=\"120\"/>\n<text dominant-baseline=\"middle\" fill=\"white\" font-family=\"Courier New,monospace\" font-weight=\"lighter\" text-anchor=\"start\" x=\"442\" y=\"137.5\">\nuuid\n</text>\n<text dominant-baseline=\"middle\" fill=\"#ECC700\" font-family=\"Courier New,monospace\" font-size=\"small\" font-weight=\"lighter\" text-anchor=\"end\" x=\"670\" y=\"137.5\">\nuuid\n</text>\n<line stroke=\"#494949\" stroke-width=\"1\" x1=\"430\" x2=\"730\" y1=\"155\" y2=\"155\"/>\n<text dominant-baseline=\"middle\" fill=\"white\" font-family=\"Courier New,monospace\" font-weight=\"lighter\" text-anchor=\"start\" x=\"442\" y=\"172.5\">\ntitle\n</text>\n<text dominant-baseline=\"middle\" fill=\"#D66905\" font-family=\"Courier New,monospace\" font-size=\"small\" font-weight=\"lighter\" text-anchor=\"end\" x=\"670\" y=\"172.5\">\ntext\n</text>\n<line stroke=\"#494949\" stroke-width=\"1\" x1=\"430\" x2=\"730\" y1=\"190\" y2=\"190\"/>\n<text dominant-baseline=\"middle\" fill=\"white\" font-family=\"Courier New,monospace\" font-weight=\"lighter\" text-anchor=\"start\" x=\"442\" y=\"207.5\">\ncontent\n</text>\n<text dominant-baseline=\"middle\" fill=\"#D66905\" font-family=\"Courier New,monospace\" font-size=\"small\" font-weight=\"lighter\" text-anchor=\"end\" x=\"670\" y=\"207.5\">\ntext\n</text>\n<line stroke=\"#494949\" stroke-width=\"1\" x1=\"430\" x2=\"730\" y1=\"225\" y2=\"225\"/>\n<text dominant-baseline=\"middle\" fill=\"white\" font-family=\"Courier New,monospace\" font-weight=\"lighter\" text-anchor=\"start\" x=\"442\" y=\"242.5\">\ncreated_at\n</text>\n<text dominant-baseline=\"middle\" fill=\"#06B697\" font-family=\"Courier New,monospace\" font-size=\"small\" font-weight=\"lighter\" text-anchor=\"end\" x=\"670\" y=\"242.5\">\ntimestamp\n</text>\n<line stroke=\"#494949\" stroke-width=\"1\" x1=\"430\" x2=\"730\" y1=\"260\" y2=\"260\"/>\n<text dominant-baseline=\"middle\" fill=\"white\" font-family=\"Courier New,monospace\" font-weight=\"lighter\" text-anchor=\"start\" x=\"442\" y=\"277.5\">\ncreated_by\n</text>\n<text dominant-baseline=\"middle\" fill=\"#ECC700\" font-family=\"Courier New,monospace\" font-size=\"small\" font-weight=\"lighter\" text-anchor=\"end\" x=\"670\" y=\"277.5\">\nint\n</text>\n<circle cx=\"706.5\" cy=\"277.5\" fill=\"#202937\" r=\"11.5\"/>\n<text dominant-baseline=\"middle\" fill=\"#1170FB\" font-family=\"Trebuchet MS,sans-serif\" font-size=\"xx-small\" text-anchor=\"middle\" x=\"706.5\" y=\"277.5\">\nFK\n</text>\n<path d=\"M350 102.5 L384 102.5 Q390 102.5 390 108.5 L390 271.5 Q390 277.5 396 277.5 L430 277.5\" fill=\"transparent\" stroke=\"#888888\" stroke-width=\"1.5\"/>\n<circle cx=\"350\" cy=\"102.5\" fill=\"#1C1C1C\" r=\"4\" stroke=\"#888888\" stroke-width=\"1.5\"/>\n<circle cx=\"430\" cy=\"277.5\" fill=\"#1C1C1C\" r=\"4\" stroke=\"#888888\" stroke-width=\"1.5\"/>\n</svg>" := by decide +kernel

/-- example/comments.seiren -/
def commentsSource : Str :=
  c!"erd posts {\n  users {\n    id         int PK\n    `uuid`     uuid\n    email      text\n    `text`     text\n    about_html text\n    created_at timestamp\n  }\n  \n  posts {\n    id         int PK\n    `uuid`     uuid\n    title      text\n    content    text\n    created_at timestamp\n    created_by int FK\n  }\n\n  comments {\n    id         int PK\n    content    text\n    created_at timestamp\n    post_id    int FK\n    created_by int FK    \n  }\n\n  // Edges\n  posts.created_by o--o users.id\n  comments.post_id o--o posts.id\n  comments.created_by o--o users.id\n}"

set_option maxRecDepth 1000000 in
example : (parse commentsSource).2 = ([], []) ∧
    stdoutText BinHeap.queue id commentsSource = some c!"<svg viewBox=\"0, 0, 1160, 345\" xmlns=\"http://www.w3.org/2000/svg\">\n<rect fill=\"#1C1C1C\" height=\"100%\" width=\"100%\"/>\n<defs>\n<clipPath id=\"record-clip-path-0\">\n<rect height=\"245\" rx=\"6\" ry=\"6\" width=\"300\" x=\"50\" y=\"50\"/>\n</clipPath>\n<clipPath id=\"record-clip-path-1\">\n<rect height=\"245\" rx=\"6\" ry=\"6\" width=\"300\" x=\"430\" y=\"50\"/>\n</clipPath>\n<clipPath id=\"record-clip-path-2\">\n<rect height=\"210\" rx=\"6\" ry=\"6\" width=\"300\" x=\"810\" y=\"50\"/>\n</clipPath>\n</defs>\n<rect fill=\"#212121\" height=\"245\" rx=\"6\" ry=\"6\" stroke=\"#494949\" width=\"300\" x=\"50\" y=\"50\"/>\n<rect clip-path=\"url(#record-clip-path-0)\" fill=\"#494949\" height=\"35\" width=\"300\" x=\"50\" y=\"50\"/>\n<text dominant-baseline=\"middle\" fill=\"white\" font-family=\"Monaco,Lucida Console,monospace\" font-weight=\"bold\" text-anchor=\"start\" x=\"62\" y=\"67.5\">\nusers\n</text>\n<line stroke=\"#494949\" stroke-width=\"1\" x1=\"50\" x2=\"350\" y1=\"85\" y2=\"85\"/>\n<text dominant-baseline=\"middle\" fill=\"white\" font-family=\"Courier New,monospace\" font-weight=\"lighter\" text-anchor=\"start\" x=\"62\" y=\"102.5\">\nid\n</text>\n<text dominant-baseline=\"middle\" fill=\"#ECC700\" font-family=\"Courier New,monospace\" font-size=\"small\" font-weight=\"lighter\" text-anchor=\"end\" x=\"290\" y=\"102.5\">\nint\n</text>\n<circle cx=\"326.5\" cy=\"102.5\" fill=\"#373737\" r=\"11.5\"/>\n<text dominant-baseline=\"middle\" fill=\"white\" font-family=\"Trebuchet MS,sans-serif\" font-size=\"xx-small\" text-anchor=\"middle\" x=\"326.5\" y=\"102.5\">\nPK\n</text>\n<line stroke=\"#494949\" stroke-width=\"1\" x1=\"50\" x2=\"350\" y1=\"120\" y2=\"120\"/>\n<text dominant-baseline=\"middle\" fill=\"white\" font-family=\"Courier New,monospace\" font-weight=\"lighter\" text-anchor=\"start\" x=\"62\" y=\"137.5\">\nuuid\n</text>\n<text dominant-baseline=\"middle\" fill=\"#ECC700\" font-family=\"Courier New,monospace\" font-size=\"small\" font-weight=\"lighter\" text-anchor=\"end\" x=\"290\" y=\"137.5\">\nuuid\n</text>\n<line stroke=\"#494949\" stroke-width=\"1\" x1=\"50\" x2=\"350\" y1=\"155\" y2=\"155\"/>\n<text dominant-baseline=\"middle\" fill=\"white\" font-family=\"Courier New,monospace\" font-weight=\"lighter\" text-anchor=\"start\" x=\"62\" y=\"172.5\">\nemail\n</text>\n<text dominant-baseline=\"middle\" fill=\"#D66905\" font-family=\"Courier New,monospace\" font-size=\"small\" font-weight=\"lighter\" text-anchor=\"end\" x=\"290\" y=\"172.5\">\ntext\n</text>\n<line stroke=\"#494949\" stroke-width=\"1\" x1=\"50\" x2=\"350\" y1=\"190\" y2=\"190\"/>\n<text dominant-baseline=\"middle\" fill=\"white\" font-family=\"Courier New,monospace\" font-weight=\"lighter\" text-anchor=\"start\" x=\"62\" y=\"207.5\">\ntext\n</text>\n<text dominant-baseline=\"middle\" fill=\"#D66905\" font-family=\"Courier New,monospace\" font-size=\"small\" font-weight=\"lighter\" text-anchor=\"end\" x=\"290\" y=\"207.5\">\ntext\n</text>\n<line stroke=\"#494949\" stroke-width=\"1\" x1=\"50\" x2=\"350\" y1=\"225\" y2=\"225\"/>\n<text dominant-baseline=\"middle\" fill=\"white\" font-family=\"Courier New,monospace\" font-weight=\"lighter\" text-anchor=\"start\" x=\"62\" y=\"242.5\">\nabout_html\n</text>\n<text dominant-baseline=\"middle\" fill=\"#D66905\" font-family=\"Courier New,monospace\" font-size=\"small\" font-weight=\"lighter\" text-anchor=\"end\" x=\"290\" y=\"242.5\">\ntext\n</text>\n<line stroke=\"#494949\" stroke-width=\"1\" x1=\"50\" x2=\"350\" y1=\"260\" y2=\"260\"/>\n<text dominant-baseline=\"middle\" fill=\"white\" font-family=\"Courier New,monospace\" font-weight=\"lighter\" text-anchor=\"start\" x=\"62\" y=\"277.5\">\ncreated_at\n</text>\n<text dominant-baseline=\"middle\" fill=\"#06B697\" font-family=\"Courier New,monospace\" font-size=\"small\" font-weight=\"lighter\" text-anchor=\"end\" x=\"290\" y=\"277.5\">\ntimestamp\n</text>\n<rect fill=\"#212121\" height=\"245\" rx=\"6\" ry=\"6\" stroke=\"#494949\" width=\"300\" x=\"430\" y=\"50\"/>\n<rect clip-path=\"url(#record-clip-path-1)\" fill=\"#494949\" height=\"35\" width=\"300\" x=\"430\" y=\"50\"/>\n<text dominant-baseline=\"middle\" fill=\"white\" font-family=\"Monaco,Lucida Console,monospace\" font-weight=\"bold\" text-anchor=\"start\" x=\"442\" y=\"67.5\">\nposts\n</text>\n<line stroke=\"#494949\" stroke-width=\"1\" x1=\"430\" x2=\"730\" y1=\"85\" y2=\"85\"/>\n<text dominant-baseline=\"middle\" fill=\"white\" font-family=\"Courier New,monospace\" font-weight=\"lighter\" text-anchor=\"start\" x=\"442\" y=\"102.5\">\nid\n</text>\n<text dominant-baseline=\"middle\" fill=\"#ECC700\" font-family=\"Courier New,monospace\" font-size=\"small\" font-weight=\"lighter\" text-anchor=\"end\" x=\"670\" y=\"102.5\">\nint\n</text>\n<circle cx=\"706.5\" cy=\"102.5\" fill=\"#373737\" r=\"11.5\"/>\n<text dominant-baseline=\"middle\" fill=\"white\" font-family=\"Trebuchet MS,sans-serif\" font-size=\"xx-small\" text-anchor=\"middle\" x=\"706.5\" y=\"102.5\">\nPK\n</text>\n<line stroke=\"#494949\" stroke-width=\"1\" x1=\"430\" x2=\"730\" y1=\"120\" y2=\"120\"/>\n<text dominant-baseline=\"middle\" fill=\"white\" font-family=\"Courier New,monospace\" font-weight=\"lighter\" text-anchor=\"start\" x=\"442\" y=\"137.5\">\nuuid\n</text>\n<text dominant-baseline=\"middle\" fill=\"#ECC700\" font-family=\"Courier New,monospace\" font-size=\"small\" font-weight=\"lighter\" text-anchor=\"end\" x=\"670\" y=\"137.5\">\nuuid\n</text>\n<line stroke=\"#494949\" stroke-width=\"1\" x1=\"430\" x2=\"730\" y1=\"155\" y2=\"155\"/>\n<text dominant-baseline=\"middle\" fill=\"white\" font-family=\"Courier New,monospace\" font-weight=\"lighter\" text-anchor=\"start\" x=\"442\" y=\"172.5\">\ntitle\n</text>\n<text dominant-baseline=\"middle\" fill=\"#D66905\" font-family=\"Courier New,monospace\" font-size=\"small\" font-weight=\"lighter\" text-anchor=\"end\" x=\"670\" y=\"172.5\">\ntext\n</text>\n<line stroke=\"#494949\" stroke-width=\"1\" x1=\"430\" x2=\"730\" y1=\"190\" y2=\"190\"/>\n<text dominant-baseline=\"middle\" fill=\"white\" font-family=\"Courier New,monospace\" font-weight=\"lighter\" text-anchor=\"start\" x=\"442\" y=\"207.5\">\ncontent\n</text>\n<text dominant-baseline=\"middle\" fill=\"#D66905\" font-family=\"Courier New,monospace\" font-size=\"small\" font-weight=\"lighter\" text-anchor=\"end\" x=\"670\" y=\"207.5\">\ntext\n</text>\n<line stroke=\"#494949\" stroke-width=\"1\" x1=\"430\" x2=\"730\" y1=\"225\" y2=\"225\"/>\n<text dominant-baseline=\"middle\" fill=\"white\" font-family=\"Courier New,monospace\" font-weight=\"lighter\" text-anchor=\"start\" x=\"442\" y=\"242.5\">\ncreated_at\n</text>\n<text dominant-baseline=\"middle\" fill=\"#06B697\" font-family=\"Courier New,monospace\" font-size=\"small\" font-weight=\"lighter\" text-anchor=\"end\" x=\"670\" y=\"242.5\">\ntimestamp\n</text>\n<line stroke=\"#494949\" stroke-width=\"1\" x1=\"430\" x2=\"730\" y1=\"260\" y2=\"260\"/>\n<text dominant-baseline=\"middle\" fill=\"white\" font-family=\"Courier New,monospace\" font-weight=\"lighter\" text-anchor=\"start\" x=\"442\" y=\"277.5\">\ncreated_by\n</text>\n<text dominant-baseline=\"middle\" fill=\"#ECC700\" font-family=\"Courier New,monospace\" font-size=\"small\" font-weight=\"lighter\" text-anchor=\"end\" x=\"670\" y=\"277.5\">\nint\n</text>\n<circle cx=\"706.5\" cy=\"277.5\" fill=\"#202937\" r=\"11.5\"/>\n<text dominant-baseline=\"middle\" fill=\"#1170FB\" font-family=\"Trebuchet MS,sans-serif\" font-size=\"xx-small\" text-anchor=\"middle\" x=\"706.5\" y=\"277.5\">\nFK\n</text>\n<rect fill=\"#212121\" height=\"210\" rx=\"6\" ry=\"6\" stroke=\"#494949\" width=\"300\" x=\"810\" y=\"50\"/>\n<rect clip-path=\"url(#record-clip-path-2)\" fill=\"#494949\" height=\"35\" width=\"300\" x=\"810\" y=\"50\"/>\n<text dominant-baseline=\"middle\" fill=\"white\" font-family=\"Monaco,Lucida Console,monospace\" font-weight=\"bold\" text-anchor=\"start\" x=\"822\" y=\"67.5\">\ncomments\n</text>\n<line stroke=\"#494949\" stroke-width=\"1\" x1=\"810\" x2=\"1110\" y1=\"85\" y2=\"85\"/>\n<text dominant-baseline=\"middle\" fill=\"white\" font-family=\"Courier New,monospace\" font-weight=\"lighter\" text-anchor=\"start\" x=\"822\" y=\"102.5\">\nid\n</text>\n<text dominant-baseline=\"middle\" fill=\"#ECC700\" font-family=\"Courier New,monospace\" font-size=\"small\" font-weight=\"lighter\" text-anchor=\"end\" x=\"1050\" y=\"102.5\">\nint\n</text>\n<circle cx=\"1086.5\" cy=\"102.5\" fill=\"#373737\" r=\"11.5\"/>\n<text dominant-baseline=\"middle\" fill=\"white\" font-family=\"Trebuchet MS,sans-serif\" font-size=\"xx-small\" text-anchor=\"middle\" x=\"1086.5\" y=\"102.5\">\nPK\n</text>\n<line stroke=\"#494949\" stroke-width=\"1\" x1=\"810\" x2=\"1110\" y1=\"120\" y2=\"120\"/>\n<text dominant-baseline=\"middle\" fill=\"white\" font-family=\"Courier New,monospace\" font-weight=\"lighter\" text-anchor=\"start\" x=\"822\" y=\"137.5\">\ncontent\n</text>\n<text dominant-baseline=\"middle\" fill=\"#D66905\" font-family=\"Courier New,monospace\" font-size=\"small\" font-weight=\"lighter\" text-anchor=\"end\" x=\"1050\" y=\"137.5\">\ntext\n</text>\n<line stroke=\"#494949\" stroke-width=\"1\" x1=\"810\" x2=\"1110\" y1=\"155\" y2=\"155\"/>\n<text dominant-baseline=\"middle\" fill=\"white\" font-family=\"Courier New,monospace\" font-weight=\"lighter\" text-anchor=\"start\" x=\"822\" y=\"172.5\">\ncreated_at\n</text>\n<text dominant-baseline=\"middle\" fill=\"#06B697\" font-family=\"Courier New,monospace\" font-size=\"small\" font-weight=\"lighter\" text-anchor=\"end\" x=\"1050\" y=\"172.5\">\ntimestamp\n</text>\n<line stroke=\"#494949\" stroke-width=\"1\" x1=\"810\" x2=\"1110\" y1=\"190\" y2=\"190\"/>\n<text dominant-baseline=\"middle\" fill=\"white\" font-family=\"Courier New,monospace\" font-weight=\"lighter\" text-anchor=\"start\" x=\"822\" y=\"207.5\">\npost_id\n</text>\n<text dominant-baseline=\"middle\" fill=\"#ECC700\" font-family=\"Courier New,monospace\" font-size=\"small\" font-weight=\"lighter\" text-anchor=\"end\" x=\"1050\" y=\"207.5\">\nint\n</text>\n<circle cx=\"1086.5\" cy=\"207.5\" fill=\"#202937\" r=\"11.5\"/>\n<text dominant-baseline=\"middle\" fill=\"#1170FB\" font-family=\"Trebuchet MS,sans-serif\" font-size=\"xx-small\" text-anchor=\"middle\" x=\"1086.5\" y=\"207.5\">\nFK\n</text>\n<line stroke=\"#494949\" stroke-width=\"1\" x1=\"810\" x2=\"1110\" y1=\"225\" y2=\"225\"/>\n<text dominant-baseline=\"middle\" fill=\"white\" font-family=\"Courier New,monospace\" font-weight=\"lighter\" text-anchor=\"start\" x=\"822\" y=\"242.5\">\ncreated_by\n</text>\n<text dominant-baseline=\"middle\" fill=\"#ECC700\" font-family=\"Courier New,monospace\" font-size=\"small\" font-weight=\"lighter\" text-anchor=\"end\" x=\"1050\" y=\"242.5\">\nint\n</text>\n<circle cx=\"1086.5\" cy=\"242.5\" fill=\"#202937\" r=\"11.5\"/>\n<text dominant-baseline=\"middle\" fill=\"#1170FB\" font-family=\"Trebuchet MS,sans-serif\" font-size=\"xx-small\" text-anchor=\"middle\" x=\"1086.5\" y=\"242.5\">\nFK\n</text>\n<path d=\"M430 277.5 L396 277.5 Q390 277.5 390 271.5 L390 108.5 Q390 102.5 384 102.5 L350 102.5\" fill=\"transparent\" stroke=\"#888888\" stroke-width=\"1.5\"/>\n<circle cx=\"430\" cy=\"277.5\" fill=\"#1C1C1C\" r=\"4\" stroke=\"#888888\" stroke-width=\"1.5\"/>\n<circle cx=\"350\" cy=\"102.5\" fill=\"#1C1C1C\" r=\"4\" stroke=\"#888888\" stroke-width=\"1.5\"/>\n<path d=\"M810 207.5 L776 207.5 Q770 207.5 770 201.5 L770 108.5 Q770 102.5 764 102.5 L730 102.5\" fill=\"transparent\" stroke=\"#888888\" stroke-width=\"1.5\"/>\n<circle cx=\"810\" cy=\"207.5\" fill=\"#1C1C1C\" r=\"4\" stroke=\"#888888\" stroke-width=\"1.5\"/>\n<circle cx=\"730\" cy=\"102.5\" fill=\"#1C1C1C\" r=\"4\" stroke=\"#888888\" stroke-width=\"1.5\"/>\n<path d=\"M810 242.5 L776 242.5 Q770 242.5 770 248.5 L770 277.5 L770 300 L770 329 Q770 335 764 335 L580 335 L396 335 Q390 335 390 329 L390 277.5 L390 108.5 Q390 102.5 384 102.5 L350 102.5\" fill=\"transparent\" stroke=\"#888888\" stroke-width=\"1.5\"/>\n<circle cx=\"810\" cy=\"242.5\" fill=\"#1C1C1C\" r=\"4\" stroke=\"#888888\" stroke-width=\"1.5\"/>\n<circle cx=\"350\" cy=\"102.5\" fill=\"#1C1C1C\" r=\"4\" stroke=\"#888888\" stroke-width=\"1.5\"/>\n</svg>" := by decide +kernel

/-- example/tags.seiren -/
def tagsSource : Str :=
  c!"erd posts {\n  users {\n    id         int PK\n    `uuid`     uuid\n    email      text\n    `text`     text\n    about_html text\n    created_at timestamp\n  }\n  \n  posts {\n    id         int PK\n    `uuid`     uuid\n    title      text\n    content    text\n    created_at timestamp\n    created_by int FK\n  }\n\n  comments {\n    id         int PK\n    content    text\n    created_at timestamp\n    post_id    int FK\n    created_by int FK    \n  }\n\n  tags {\n    id   int PK\n    name text\n  }\n\n  post_tags {\n    post_id int FK\n    tag_id  int FK\n  }\n\n  // Edges\n  posts.created_by o--o users.id\n  comments.post_id o--o posts.id\n  comments.created_by o--o users.id\n  post_tags.post_id o--o posts.id\n  post_tags.tag_id o--o tags.id\n}"

set_option maxRecDepth 1000000 in
example : (parse tagsSource).2 = ([], []) ∧
    stdoutText BinHeap.queue id tagsSource = some c!"<svg viewBox=\"0, 0, 1160, 530\" xmlns=\"http://www.w3.org/2000/svg\">\n<rect fill=\"#1C1C1C\" height=\"100%\" width=\"100%\"/>\n<defs>\n<clipPath id=\"record-clip-path-0\">\n<rect height=\"245\" rx=\"6\" ry=\"6\" width=\"300\" x=\"50\" y=\"50\"/>\n</clipPath>\n<clipPath id=\"record-clip-path-1\">\n<rect height=\"245\" rx=\"6\" ry=\"6\" width=\"300\" x=\"430\" y=\"50\"/>\n</clipPath>\n<clipPath id=\"record-clip-path-2\">\n<rect height=\"210\" rx=\"6\" ry=\"6\" width=\"300\" x=\"810\" y=\"50\"/>\n</clipPath>\n<clipPath id=\"record-clip-path-3\">\n<rect height=\"105\" rx=\"6\" ry=\"6\" width=\"300\" x=\"50\" y=\"375\"/>\n</clipPath>\n<clipPath id=\"record-clip-path-4\">\n<rect height=\"105\" rx=\"6\" ry=\"6\" width=\"300\" x=\"430\" y=\"375\"/>\n</clipPath>\n</defs>\n<rect fill=\"#212121\" height=\"245\" rx=\"6\" ry=\"6\" stroke=\"#494949\" width=\"300\" x=\"50\" y=\"50\"/>\n<rect clip-path=\"url(#record-clip-path-0)\" fill=\"#494949\" height=\"35\" width=\"300\" x=\"50\" y=\"50\"/>\n<text dominant-baseline=\"middle\" fill=\"white\" font-family=\"Monaco,Lucida Console,monospace\" font-weight=\"bold\" text-anchor=\"start\" x=\"62\" y=\"67.5\">\nusers\n</text>\n<line stroke=\"#494949\" stroke-width=\"1\" x1=\"50\" x2=\"350\" y1=\"85\" y2=\"85\"/>\n<text dominant-baseline=\"middle\" fill=\"white\" font-family=\"Courier New,monospace\" font-weight=\"lighter\" text-anchor=\"start\" x=\"62\" y=\"102.5\">\nid\n</text>\n<text dominant-baseline=\"middle\" fill=\"#ECC700\" font-family=\"Courier New,monospace\" font-size=\"small\" font-weight=\"lighter\" text-anchor=\"end\" x=\"290\" y=\"102.5\">\nint\n</text>\n<circle cx=\"326.5\" cy=\"102.5\" fill=\"#373737\" r=\"11.5\"/>\n<text dominant-baseline=\"middle\" fill=\"white\" font-family=\"Trebuchet MS,sans-serif\" font-size=\"xx-small\" text-anchor=\"middle\" x=\"326.5\" y=\"102.5\">\nPK\n</text>\n<line stroke=\"#494949\" stroke-width=\"1\" x1=\"50\" x2=\"350\" y1=\"120\" y2=\"120\"/>\n<text dominant-baseline=\"middle\" fill=\"white\" font-family=\"Courier New,monospace\" font-weight=\"lighter\" text-anchor=\"start\" x=\"62\" y=\"137.5\">\nuuid\n</text>\n<text dominant-baseline=\"middle\" fill=\"#ECC700\" font-family=\"Courier New,monospace\" font-size=\"small\" font-weight=\"lighter\" text-anchor=\"end\" x=\"290\" y=\"137.5\">\nuuid\n</text>\n<line stroke=\"#494949\" stroke-width=\"1\" x1=\"50\" x2=\"350\" y1=\"155\" y2=\"155\"/>\n<text dominant-baseline=\"middle\" fill=\"white\" font-family=\"Courier New,monospace\" font-weight=\"lighter\" text-anchor=\"start\" x=\"62\" y=\"172.5\">\nemail\n</text>\n<text dominant-baseline=\"middle\" fill=\"#D66905\" font-family=\"Courier New,monospace\" font-size=\"small\" font-weight=\"lighter\" text-anchor=\"end\" x=\"290\" y=\"172.5\">\ntext\n</text>\n<line stroke=\"#494949\" stroke-width=\"1\" x1=\"50\" x2=\"350\" y1=\"190\" y2=\"190\"/>\n<text dominant-baseline=\"middle\" fill=\"white\" font-family=\"Courier New,monospace\" font-weight=\"lighter\" text-anchor=\"start\" x=\"62\" y=\"207.5\">\ntext\n</text>\n<text dominant-baseline=\"middle\" fill=\"#D66905\" font-family=\"Courier New,monospace\" font-size=\"small\" font-weight=\"lighter\" text-anchor=\"end\" x=\"290\" y=\"207.5\">\ntext\n</text>\n<line stroke=\"#494949\" stroke-width=\"1\" x1=\"50\" x2=\"350\" y1=\"225\" y2=\"225\"/>\n<text dominant-baseline=\"middle\" fill=\"white\" font-family=\"Courier New,monospace\" font-weight=\"lighter\" text-anchor=\"start\" x=\"62\" y=\"242.5\">\nabout_html\n</text>\n<text dominant-baseline=\"middle\" fill=\"#D66905\" font-family=\"Courier New,monospace\" font-size=\"small\" font-weight=\"lighter\" text-anchor=\"end\" x=\"290\" y=\"242.5\">\ntext\n</text>\n<line stroke=\"#494949\" stroke-width=\"1\" x1=\"50\" x2=\"350\" y1=\"260\" y2=\"260\"/>\n<text dominant-baseline=\"middle\" fill=\"white\" font-family=\"Courier New,monospace\" font-weight=\"lighter\" text-anchor=\"start\" x=\"62\" y=\"277.5\">\ncreated_at\n</text>\n<text dominant-baseline=\"middle\" fill=\"#06B697\" font-family=\"Courier New,monospace\" font-size=\"small\" font-weight=\"lighter\" text-anchor=\"end\" x=\"290\" y=\"277.5\">\ntimestamp\n</text>\n<rect fill=\"#212121\" height=\"245\" rx=\"6\" ry=\"6\" stroke=\"#494949\" width=\"300\" x=\"430\" y=\"50\"/>\n<rect clip-path=\"url(#record-clip-path-1)\" fill=\"#494949\" height=\"35\" width=\"300\" x=\"430\" y=\"50\"/>\n<text dominant-baseline=\"middle\" fill=\"white\" font-family=\"Monaco,Lucida Console,monospace\" font-weight=\"bold\" text-anchor=\"start\" x=\"442\" y=\"67.5\">\nposts\n</text>\n<line stroke=\"#494949\" stroke-width=\"1\" x1=\"430\" x2=\"730\" y1=\"85\" y2=\"85\"/>\n<text dominant-baseline=\"middle\" fill=\"white\" font-family=\"Courier New,monospace\" font-weight=\"lighter\" text-anchor=\"start\" x=\"442\" y=\"102.5\">\nid\n</text>\n<text dominant-baseline=\"middle\" fill=\"#ECC700\" font-family=\"Courier New,monospace\" font-size=\"small\" font-weight=\"lighter\" text-anchor=\"end\" x=\"670\" y=\"102.5\">\nint\n</text>\n<circle cx=\"706.5\" cy=\"102.5\" fill=\"#373737\" r=\"11.5\"/>\n<text dominant-baseline=\"middle\" fill=\"white\" font-family=\"Trebuchet MS,sans-serif\" font-size=\"xx-small\" text-anchor=\"middle\" x=\"706.5\" y=\"102.5\">\nPK\n</text>\n<line stroke=\"#494949\" stroke-width=\"1\" x1=\"430\" x2=\"730\" y1=\"120\" y2=\"120\"/>\n<text dominant-baseline=\"middle\" fill=\"white\" font-family=\"Courier New,monospace\" font-weight=\"lighter\" text-anchor=\"start\" x=\"442\" y=\"137.5\">\nuuid\n</text>\n<text dominant-baseline=\"middle\" fill=\"#ECC700\" font-family=\"Courier New,monospace\" font-size=\"small\" font-weight=\"lighter\" text-anchor=\"end\" x=\"670\" y=\"137.5\">\nuuid\n</text>\n<line stroke=\"#494949\" stroke-width=\"1\" x1=\"430\" x2=\"730\" y1=\"155\" y2=\"155\"/>\n<text dominant-baseline=\"middle\" fill=\"white\" font-family=\"Courier New,monospace\" font-weight=\"lighter\" text-anchor=\"start\" x=\"442\" y=\"172.5\">\ntitle\n</text>\n<text dominant-baseline=\"middle\" fill=\"#D66905\" font-family=\"Courier New,monospace\" font-size=\"small\" font-weight=\"lighter\" text-anchor=\"end\" x=\"670\" y=\"172.5\">\ntext\n</text>\n<line stroke=\"#494949\" stroke-width=\"1\" x1=\"430\" x2=\"730\" y1=\"190\" y2=\"190\"/>\n<text dominant-baseline=\"middle\" fill=\"white\" font-family=\"Courier New,monospace\" font-weight=\"lighter\" text-anchor=\"start\" x=\"442\" y=\"207.5\">\ncontent\n</text>\n<text dominant-baseline=\"middle\" fill=\"#D66905\" font-family=\"Courier New,monospace\" font-size=\"small\" font-weight=\"lighter\" text-anchor=\"end\" x=\"670\" y=\"207.5\">\ntext\n</text>\n<line stroke=\"#494949\" stroke-width=\"1\" x1=\"430\" x2=\"730\" y1=\"225\" y2=\"225\"/>\n<text dominant-baseline=\"middle\" fill=\"white\" font-family=\"Courier New,monospace\" font-weight=\"lighter\" text-anchor=\"start\" x=\"442\" y=\"242.5\">\ncreated_at\n</text>\n<text dominant-baseline=\"middle\" fill=\"#06B697\" font-family=\"Courier New,monospace\" font-size=\"small\" font-weight=\"lighter\" text-anchor=\"end\" x=\"670\" y=\"242.5\">\ntimestamp\n</text>\n<line stroke=\"#494949\" stroke-width=\"1\" x1=\"430\" x2=\"730\" y1=\"260\" y2=\"260\"/>\n<text dominant-baseline=\"middle\" fill=\"white\" font-family=\"Courier New,monospace\" font-weight=\"lighter\" text-anchor=\"start\" x=\"442\" y=\"277.5\">\ncreated_by\n</text>\n<text dominant-baseline=\"middle\" fill=\"#ECC700\" font-family=\"Courier New,monospace\" font-size=\"small\" font-weight=\"lighter\" text-anchor=\"end\" x=\"670\" y=\"277.5\">\nint\n</text>\n<circle cx=\"706.5\" cy=\"277.5\" fill=\"#202937\" r=\"11.5\"/>\n<text dominant-baseline=\"middle\" fill=\"#1170FB\" font-family=\"Trebuchet MS,sans-serif\" font-size=\"xx-small\" text-anchor=\"middle\" x=\"706.5\" y=\"277.5\">\nFK\n</text>\n<rect fill=\"#212121\" height=\"210\" rx=\"6\" ry=\"6\" stroke=\"#494949\" width=\"300\" x=\"810\" y=\"50\"/>\n<rect clip-path=\"url(#record-clip-path-2)\" fill=\"#494949\" height=\"35\" width=\"300\" x=\"810\" y=\"50\"/>\n<text dominant-baseline=\"middle\" fill=\"white\" font-family=\"Monaco,Lucida Console,monospace\" font-weight=\"bold\" text-anchor=\"start\" x=\"822\" y=\"67.5\">\ncomments\n</text>\n<line stroke=\"#494949\" stroke-width=\"1\" x1=\"810\" x2=\"1110\" y1=\"85\" y2=\"85\"/>\n<text dominant-baseline=\"middle\" fill=\"white\" font-family=\"Courier New,monospace\" font-weight=\"lighter\" text-anchor=\"start\" x=\"822\" y=\"102.5\">\nid\n</text>\n<text dominant-baseline=\"middle\" fill=\"#ECC700\" font-family=\"Courier New,monospace\" font-size=\"small\" font-weight=\"lighter\" text-anchor=\"end\" x=\"1050\" y=\"102.5\">\nint\n</text>\n<circle cx=\"1086.5\" cy=\"102.5\" fill=\"#373737\" r=\"11.5\"/>\n<text dominant-baseline=\"middle\" fill=\"white\" font-family=\"Trebuchet MS,sans-serif\" font-size=\"xx-small\" text-anchor=\"middle\" x=\"1086.5\" y=\"102.5\">\nPK\n</text>\n<line stroke=\"#494949\" stroke-width=\"1\" x1=\"810\" x2=\"1110\" y1=\"120\" y2=\"120\"/>\n<text dominant-baseline=\"middle\" fill=\"white\" font-family=\"Courier New,monospace\" font-weight=\"lighter\" text-anchor=\"start\" x=\"822\" y=\"137.5\">\ncontent\n</text>\n<text dominant-baseline=\"middle\" fill=\"#D66905\" font-family=\"Courier New,monospace\" font-size=\"small\" font-weight=\"lighter\" text-anchor=\"end\" x=\"1050\" y=\"137.5\">\ntext\n</text>\n<line stroke=\"#494949\" stroke-width=\"1\" x1=\"810\" x2=\"1110\" y1=\"155\" y2=\"155\"/>\n<text dominant-baseline=\"middle\" fill=\"white\" font-family=\"Courier New,monospace\" font-weight=\"lighter\" text-anchor=\"start\" x=\"822\" y=\"172.5\">\ncreated_at\n</text>\n<text dominant-baseline=\"middle\" fill=\"#06B697\" font-family=\"Courier New,monospace\" font-size=\"small\" font-weight=\"lighter\" text-anchor=\"end\" x=\"1050\" y=\"172.5\">\ntimestamp\n</text>\n<line stroke=\"#494949\" stroke-width=\"1\" x1=\"810\" x2=\"1110\" y1=\"190\" y2=\"190\"/>\n<text dominant-baseline=\"middle\" fill=\"white\" font-family=\"Courier New,monospace\" font-weight=\"lighter\" text-anchor=\"start\" x=\"822\" y=\"207.5\">\npost_id\n</text>\n<text dominant-baseline=\"middle\" fill=\"#ECC700\" font-family=\"Courier New,monospace\" font-size=\"small\" font-weight=\"lighter\" text-anchor=\"end\" x=\"1050\" y=\"207.5\">\nint\n</text>\n<circle cx=\"1086.5\" cy=\"207.5\" fill=\"#202937\" r=\"11.5\"/>\n<text dominant-baseline=\"middle\" fill=\"#1170FB\" font-family=\"Trebuchet MS,sans-serif\" font-size=\"xx-small\" text-anchor=\"middle\" x=\"1086.5\" y=\"207.5\">\nFK\n</text>\n<line stroke=\"#494949\" stroke-width=\"1\" x1=\"810\" x2=\"1110\" y1=\"225\" y2=\"225\"/>\n<text dominant-baseline=\"middle\" fill=\"white\" font-family=\"Courier New,monospace\" font-weight=\"lighter\" text-anchor=\"start\" x=\"822\" y=\"242.5\">\ncreated_by\n</text>\n<text dominant-baseline=\"middle\" fill=\"#ECC700\" font-family=\"Courier New,monospace\" font-size=\"small\" font-weight=\"lighter\" text-anchor=\"end\" x=\"1050\" y=\"242.5\">\nint\n</text>\n<circle cx=\"1086.5\" cy=\"242.5\" fill=\"#202937\" r=\"11.5\"/>\n<text dominant-baseline=\"middle\" fill=\"#1170FB\" font-family=\"Trebuchet MS,sans-serif\" font-size=\"xx-small\" text-anchor=\"middle\" x=\"1086.5\" y=\"242.5\">\nFK\n</text>\n<rect fill=\"#212121\" height=\"105\" rx=\"6\" ry=\"6\" stroke=\"#494949\" width=\"300\" x=\"50\" y=\"375\"/>\n<rect clip-path=\"url(#record-clip-path-3)\" fill=\"#494949\" height=\"35\" width=\"300\" x=\"50\" y=\"375\"/>\n<text dominant-baseline=\"middle\" fill=\"white\" font-family=\"Monaco,Lucida Console,monospace\" font-weight=\"bold\" text-anchor=\"start\" x=\"62\" y=\"392.5\">\ntags\n</text>\n<line stroke=\"#494949\" stroke-width=\"1\" x1=\"50\" x2=\"350\" y1=\"410\" y2=\"410\"/>\n<text dominant-baseline=\"middle\" fill=\"white\" font-family=\"Courier New,monospace\" font-weight=\"lighter\" text-anchor=\"start\" x=\"62\" y=\"427.5\">\nid\n</text>\n<text dominant-baseline=\"middle\" fill=\"#ECC700\" font-family=\"Courier New,monospace\" font-size=\"small\" font-weight=\"lighter\" text-anchor=\"end\" x=\"290\" y=\"427.5\">\nint\n</text>\n<circle cx=\"326.5\" cy=\"427.5\" fill=\"#373737\" r=\"11.5\"/>\n<text dominant-baseline=\"middle\" fill=\"white\" font-family=\"Trebuchet MS,sans-serif\" font-size=\"xx-small\" text-anchor=\"middle\" x=\"326.5\" y=\"427.5\">\nPK\n</text>\n<line stroke=\"#494949\" stroke-width=\"1\" x1=\"50\" x2=\"350\" y1=\"445\" y2=\"445\"/>\n<text dominant-baseline=\"middle\" fill=\"white\" font-family=\"Courier New,monospace\" font-weight=\"lighter\" text-anchor=\"start\" x=\"62\" y=\"462.5\">\nname\n</text>\n<text dominant-baseline=\"middle\" fill=\"#D66905\" font-family=\"Courier New,monospace\" font-size=\"small\" font-weight=\"lighter\" text-anchor=\"end\" x=\"290\" y=\"462.5\">\ntext\n</text>\n<rect fill=\"#212121\" height=\"105\" rx=\"6\" ry=\"6\" stroke=\"#494949\" width=\"300\" x=\"430\" y=\"375\"/>\n<rect clip-path=\"url(#record-clip-path-4)\" fill=\"#494949\" height=\"35\" width=\"300\" x=\"430\" y=\"375\"/>\n<text dominant-baseline=\"middle\" fill=\"white\" font-family=\"Monaco,Lucida Console,monospace\" font-weight=\"bold\" text-anchor=\"start\" x=\"442\" y=\"392.5\">\npost_tags\n</text>\n<line stroke=\"#494949\" stroke-width=\"1\" x1=\"430\" x2=\"730\" y1=\"410\" y2=\"410\"/>\n<text dominant-baseline=\"middle\" fill=\"white\" font-family=\"Courier New,monospace\" font-weight=\"lighter\" text-anchor=\"start\" x=\"442\" y=\"427.5\">\npost_id\n</text>\n<text dominant-baseline=\"middle\" fill=\"#ECC700\" font-family=\"Courier New,monospace\" font-size=\"small\" font-weight=\"lighter\" text-anchor=\"end\" x=\"670\" y=\"427.5\">\nint\n</text>\n<circle cx=\"706.5\" cy=\"427.5\" fill=\"#202937\" r=\"11.5\"/>\n<text dominant-baseline=\"middle\" fill=\"#1170FB\" font-family=\"Trebuchet MS,sans-serif\" font-size=\"xx-small\" text-anchor=\"middle\" x=\"706.5\" y=\"427.5\">\nFK\n</text>\n<line stroke=\"#494949\" stroke-width=\"1\" x1=\"430\" x2=\"730\" y1=\"445\" y2=\"445\"/>\n<text dominant-baseline=\"middle\" fill=\"white\" font-family=\"Courier New,monospace\" font-weight=\"lighter\" text-anchor=\"start\" x=\"442\" y=\"462.5\">\ntag_id\n</text>\n<text dominant-baseline=\"middle\" fill=\"#ECC700\" font-family=\"Courier New,monospace\" font-size=\"small\" font-weight=\"lighter\" text-anchor=\"end\" x=\"670\" y=\"462.5\">\nint\n</text>\n<circle cx=\"706.5\" cy=\"462.5\" fill=\"#202937\" r=\"11.5\"/>\n<text dominant-baseline=\"middle\" fill=\"#1170FB\" font-family=\"Trebuchet MS,sans-serif\" font-size=\"xx-small\" text-anchor=\"middle\" x=\"706.5\" y=\"462.5\">\nFK\n</text>\n<path d=\"M430 277.5 L396 277.5 Q390 277.5 390 271.5 L390 108.5 Q390 102.5 384 102.5 L350 102.5\" fill=\"transparent\" stroke=\"#888888\" stroke-width=\"1.5\"/>\n<circle cx=\"430\" cy=\"277.5\" fill=\"#1C1C1C\" r=\"4\" stroke=\"#888888\" stroke-width=\"1.5\"/>\n<circle cx=\"350\" cy=\"102.5\" fill=\"#1C1C1C\" r=\"4\" stroke=\"#888888\" stroke-width=\"1.5\"/>\n<path d=\"M810 207.5 L776 207.5 Q770 207.5 770 201.5 L770 108.5 Q770 102.5 764 102.5 L730 102.5\" fill=\"transparent\" stroke=\"#888888\" stroke-width=\"1.5\"/>\n<circle cx=\"810\" cy=\"207.5\" fill=\"#1C1C1C\" r=\"4\" stroke=\"#888888\" stroke-width=\"1.5\"/>\n<circle cx=\"730\" cy=\"102.5\" fill=\"#1C1C1C\" r=\"4\" stroke=\"#888888\" stroke-width=\"1.5\"/>\n<path d=\"M810 242.5 L776 242.5 Q770 242.5 770 248.5 L770 277.5 L770 300 L770 329 Q770 335 764 335 L580 335 L396 335 Q390 335 390 329 L390 277.5 L390 108.5 Q390 102.5 384 102.5 L350 102.5\" fill=\"transparent\" stroke=\"#888888\" stroke-width=\"1.5\"/>\n<circle cx=\"810\" cy=\"242.5\" fill=\"#1C1C1C\" r=\"4\" stroke=\"#888888\" stroke-width=\"1.5\"/>\n<circle cx=\"350\" cy=\"102.5\" fill=\"#1C1C1C\" r=\"4\" stroke=\"#888888\" stroke-width=\"1.5\"/>\n<path d=\"M730 427.5 L764 427.5 Q770 427.5 770 421.5 L770 335 L770 300 L770 277.5 L770 242.5 L770 207.5 L770 108.5 Q770 102.5 764 102.5 L730 102.5\" fill=\"transparent\" stroke=\"#888888\" stroke-width=\"1.5\"/>\n<circle cx=\"730\" cy=\"427.5\" fill=\"#1C1C1C\" r=\"4\" stroke=\"#888888\" stroke-width=\"1.5\"/>\n<circle cx=\"730\" cy=\"102.5\" fill=\"#1C1C1C\" r=\"4\" stroke=\"#888888\" stroke-width=\"1.5\"/>\n<path d=\"M430 462.5 L396 462.5 Q390 462.5 390 456.5 L390 433.5 Q390 427.5 384 427.5 L350 427.5\" fill=\"transparent\" stroke=\"#888888\" stroke-width=\"1.5\"/>\n<circle cx=\"430\" cy=\"462.5\" fill=\"#1C1C1C\" r=\"4\" stroke=\"#888888\" stroke-width=\"1.5\"/>\n<circle cx=\"350\" cy=\"427.5\" fill=\"#1C1C1C\" r=\"4\" stroke=\"#888888\" stroke-width=\"1.5\"/>\n</svg>" := by decide +kernel

end Seiren
