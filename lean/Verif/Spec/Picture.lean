import Verif.Model.Renderer
import Verif.Spec.Layout
import Verif.Spec.Mir
/-!
# What the drawing of a module looks like

A specification of the whole SVG in terms of the module alone, with all positions, sizes, colours and fonts written out.
Attributes are listed in the order in which the code sets them.
-/

namespace Seiren.Spec

/-- The numbers of lines of the tables: a header and the columns. -/
def lineNumbers (ds : List EntityDefinition) : List Nat := ds.map fun d => d.fields.length + 1

/-- The left side of table number `k`: three tables in a row. -/
def tableX (k : Nat) : Rat := 50 + 380 * ((k % 3 : Nat) : Rat)

/-- A text in the middle of a line that starts at height `y`. -/
def picText (x y : Rat) (anchor fill font : Str) (style : List (Str × AttrVal)) (text : Str) : Element :=
  .mk c!"text" ([(c!"x", .num x), (c!"y", .num (y + 35 / 2)), (c!"dominant-baseline", .str c!"middle"),
    (c!"text-anchor", .str anchor), (c!"fill", .str fill), (c!"font-family", .str font)] ++ style) [] (some text)

/-- The frame of a table. -/
def picFrame (x y : Rat) (lines : Nat) (colors : List (Str × AttrVal)) : Element :=
  .mk c!"rect" ([(c!"x", .num x), (c!"y", .num y), (c!"width", .num 300), (c!"height", .num (35 * (lines : Rat))),
    (c!"rx", .num 6), (c!"ry", .num 6)] ++ colors) [] none

/-- The name of the clip path of table `k`. -/
def clipName (k : Nat) : Str := c!"record-clip-path-" ++ Nat.toDigits 10 k

/-- The header of table `k`: a light background, clipped to the frame of the table, and the name in bold face. -/
def picHeader (k : Nat) (x y : Rat) (name : Str) : List Element :=
  [.mk c!"rect" [(c!"x", .num x), (c!"y", .num y), (c!"width", .num 300), (c!"height", .num 35), (c!"fill", .str c!"#494949"),
     (c!"clip-path", .str (c!"url(#" ++ clipName k ++ c!")"))] [] none,
   picText (x + 12) y c!"start" c!"white" c!"Monaco,Lucida Console,monospace" [(c!"font-weight", .str c!"bold")] name]

/-- The colour of a type. -/
def typeColor : EntityFieldType → Str
  | .int => c!"#ECC700"
  | .uuid => c!"#ECC700"
  | .text => c!"#D66905"
  | .timestamp => c!"#06B697"

/-- The colours of a key: letters and disc. -/
def keyColors : EntityFieldKey → Str × Str
  | .primaryKey => (c!"white", c!"#373737")
  | .foreignKey => (c!"#1170FB", c!"#202937")

/-- The badge of a key: a disc of radius 11.5 at the right end of the line with the letters in its middle. -/
def picBadge (x y : Rat) (k : EntityFieldKey) : List Element :=
  [.mk c!"circle" [(c!"cx", .num (x + 553 / 2)), (c!"cy", .num (y + 35 / 2)), (c!"r", .num (23 / 2)),
     (c!"fill", .str (keyColors k).2)] [] none,
   picText (x + 553 / 2) y c!"middle" (keyColors k).1 c!"Trebuchet MS,sans-serif" [(c!"font-size", .str c!"xx-small")] (keyText k)]

/-- A column: a separator above it, the name on the left, the type right-aligned at 4/5 of the width, the badge. -/
def picColumn (x y : Rat) (f : EntityField) : List Element :=
  [.mk c!"line" [(c!"x1", .num x), (c!"x2", .num (x + 300)), (c!"y1", .num y), (c!"y2", .num y),
     (c!"stroke", .str c!"#494949"), (c!"stroke-width", .num 1)] [] none,
   picText (x + 12) y c!"start" c!"white" c!"Courier New,monospace" [(c!"font-weight", .str c!"lighter")] f.name,
   picText (x + 240) y c!"end" (typeColor f.fieldType) c!"Courier New,monospace"
     [(c!"font-weight", .str c!"lighter"), (c!"font-size", .str c!"small")] (typeText f.fieldType)]
  ++ match f.fieldKey with
     | some k => picBadge x y k
     | none => []

/-- Table number `k`. -/
def picTable (ns : List Nat) (d : EntityDefinition) (k : Nat) : List Element :=
  let x := tableX k
  let y := rowTop ns (k / 3)
  picFrame x y (d.fields.length + 1) [(c!"stroke", .str c!"#494949"), (c!"fill", .str c!"#212121")] ::
    (picHeader k x y d.name ++ d.fields.zipIdx.flatMap fun (f, j) => picColumn x (y + 35 * ((j : Rat) + 1)) f)

/-- The clip path of table number `k`: its frame. -/
def picClip (ns : List Nat) (d : EntityDefinition) (k : Nat) : Element :=
  .mk c!"clipPath" [(c!"id", .str (clipName k))] [picFrame (tableX k) (rowTop ns (k / 3)) (d.fields.length + 1) []] none

/-- A circle at an end of a relation. -/
def picEnd (p : Point) : Element :=
  .mk c!"circle" [(c!"cx", .num p.x), (c!"cy", .num p.y), (c!"r", .num 4), (c!"stroke", .str c!"#888888"),
    (c!"stroke-width", .num (3 / 2)), (c!"fill", .str c!"#1C1C1C")] [] none

/-- A relation drawn from `a` to `b` by the given path commands. -/
def picRelation (a b : Point) (cs : List PathCommand) : List Element :=
  [.mk c!"path" [(c!"stroke", .str c!"#888888"), (c!"stroke-width", .num (3 / 2)), (c!"fill", .str c!"transparent"),
     (c!"d", .path cs)] [] none, picEnd a, picEnd b]

/-- The height of the picture: down to the end of the last row, and a margin. -/
def picHeight (ns : List Nat) : Rat := rowTop ns ((ns.length - 1) / 3) + 35 * (tallest ns ((ns.length - 1) / 3) : Rat) + 50

/-- The picture of a module with definitions `ds`, with given elements for its relations. -/
def picture (ds : List EntityDefinition) (relations : List Element) : Element :=
  let ns := lineNumbers ds
  .mk c!"svg" [(c!"viewBox", .nums [0, 0, 1160, picHeight ns])]
    (.mk c!"rect" [(c!"width", .str c!"100%"), (c!"height", .str c!"100%"), (c!"fill", .str c!"#1C1C1C")] [] none ::
     .mk c!"defs" [] (ds.zipIdx.map fun (d, k) => picClip ns d k) none ::
     ds.zipIdx.flatMap (fun (d, k) => picTable ns d k) ++ relations) none

/-- The place of a table or column. -/
def refRect (ns : List Nat) : NodeRef → Rect
  | .table k => tableRect ns k (ns[k]?.getD 0)
  | .column k j => lineRect ns k (j + 1)

/-- The sides at which a relation may end: all four of a table, left and right of a column, also the lower one if it is the
last. -/
def HasSide (ns : List Nat) : NodeRef → Orientation → Prop
  | .table _, _ => True
  | .column _ _, .left => True
  | .column _ _, .right => True
  | .column k j, .down => ns[k]? = some (j + 2)
  | .column _ _, .up => False

end Seiren.Spec
