import Verif.Model.Main
import Verif.Model.Debug
/-!
# The text of an SVG

Model of what renderer.rs:214 writes: `svg_doc.to_string()`.  The source of the svg 0.13.0 crate is not in /repo; the format
below is the one of the files `/repo/example/*.svg`, which it was compared with.  In particular the attributes are sorted by
name, every element stands on a line of its own, and text stands on a line of its own between the tags.

Whether the crate escapes text is not visible in the examples.  Escaping is therefore a parameter `esc` of the model; as far
as we know version 0.13.0 writes text as it is (`esc = id`).
-/

namespace Seiren

/-- `Display` of an `f32` that is a multiple of 1/2 of at most 2^22 (all numbers of a drawing are, C57 and C64): Rust prints
the shortest decimal number that is rounded to the given one, without an exponent.  Other numbers are not modelled. -/
def displayNum (x : Rat) : Str :=
  let n := (x * 2).floor
  (if n < 0 then c!"-" else []) ++ Nat.toDigits 10 (n.natAbs / 2) ++ (if n.natAbs % 2 = 1 then c!".5" else [])

/-- `[..].join(sep)`. -/
def joinWith (sep : Str) : List Str → Str
  | [] => []
  | [s] => s
  | s :: t :: rest => s ++ sep ++ joinWith sep (t :: rest)

/-- renderer.rs:334-507: one piece of the `d` attribute. -/
def PathCommand.display : PathCommand → Str
  | .moveTo p => c!"M" ++ displayNum p.x ++ c!" " ++ displayNum p.y
  | .lineTo p => c!"L" ++ displayNum p.x ++ c!" " ++ displayNum p.y
  | .quadTo c p => c!"Q" ++ displayNum c.x ++ c!" " ++ displayNum c.y ++ c!" " ++ displayNum p.x ++ c!" " ++ displayNum p.y

/-- The value of an attribute as text: renderer.rs:46-55 (`viewBox`), 513-517 (`d`), 579-586 (`points`), and `to_string` of
numbers in the svg crate. -/
def AttrVal.display : AttrVal → Str
  | .str s => s
  | .num x => displayNum x
  | .nums xs => joinWith c!", " (xs.map displayNum)
  | .path cs => joinWith c!" " (cs.map PathCommand.display)
  | .points ps => joinWith c!" " (ps.map fun p => displayNum p.x ++ c!", " ++ displayNum p.y)

/-- The order of `str`: that of the code points. -/
def strLt : Str → Str → Bool
  | [], [] => false
  | [], _ :: _ => true
  | _ :: _, [] => false
  | a :: s, b :: t => decide (a.toNat < b.toNat) || (a == b && strLt s t)

/-- Insert an attribute in front of the first one with a greater name. -/
def insertAttr (a : Str × Str) : List (Str × Str) → List (Str × Str)
  | [] => [a]
  | b :: bs => if strLt a.1 b.1 then a :: b :: bs else b :: insertAttr a bs

/-- svg crate: the attributes of an element, sorted by name. -/
def sortAttrs : List (Str × Str) → List (Str × Str)
  | [] => []
  | a :: as => insertAttr a (sortAttrs as)

/-- svg crate: an attribute.  A value with a double quote is put between single quotes; one with both kinds is left out. -/
def attrText (a : Str × Str) : Str :=
  if a.2.contains '"' then
    if a.2.contains '\'' then [] else c!" " ++ a.1 ++ c!"='" ++ a.2 ++ c!"'"
  else c!" " ++ a.1 ++ c!"=\"" ++ a.2 ++ c!"\""

mutual
/-- svg crate: `Display` of an element. -/
def Element.toText (esc : Str → Str) : Element → Str
  | .mk name attrs children text =>
    c!"<" ++ name ++ (sortAttrs (attrs.map fun a => (a.1, a.2.display))).flatMap attrText ++
      if children.isEmpty && text.isNone then c!"/>"
      else c!">" ++ childrenText esc children ++ (text.map fun t => c!"\n" ++ esc t).getD [] ++ c!"\n</" ++ name ++ c!">"

/-- svg crate: the children of an element, each on a new line. -/
def childrenText (esc : Str → Str) : List Element → Str
  | [] => []
  | c :: cs => c!"\n" ++ c.toText esc ++ childrenText esc cs
end

/-- svg crate: `Document::new` sets the attribute `xmlns`. -/
def withNamespace : Element → Element
  | .mk name attrs children text => .mk name ((c!"xmlns", .str c!"http://www.w3.org/2000/svg") :: attrs) children text

/-- renderer.rs:214: the text written to the output. -/
def svgText (esc : Str → Str) (e : Element) : Str := (withNamespace e).toText esc

/-- main.rs:125-130: what a run writes to standard output; `none` if it panics. -/
def stdoutText (q : Queue) (esc : Str → Str) (src : Str) : Option Str :=
  match (runMain q src).drawing with
  | none => some []
  | some (.error _) => none
  | some (.ok e) => some (svgText esc e)

end Seiren
