import Verif.Model.Renderer
/-!
# Reading XML and SVG values

A small reader for XML 1.0, written without reference to the program: elements, attributes, character data and the five
predefined entities.  It refuses what is not well-formed.  It also refuses what a program reading XML would accept but this
reader does not know: comments, processing instructions, CDATA sections, numeric character references, names with characters
outside ASCII.  Below it, readers for numbers, lists of numbers and path data as they occur in attributes of SVG.
-/

namespace Seiren.Spec

/-- An XML tree. -/
inductive Xml where
  | text (s : Str)
  | elem (name : Str) (attrs : List (Str × Str)) (content : List Xml)

/-- White space. -/
def isBlank (c : Char) : Bool := c == ' ' || c == '\t' || c == '\n' || c == '\r'

/-- A character allowed in XML. -/
def isXmlChar (c : Char) : Bool :=
  c == '\t' || c == '\n' || c == '\r' || (decide (32 ≤ c.toNat) && c.toNat != 0xFFFE && c.toNat != 0xFFFF)

/-- A character with which a name may begin. -/
def isNameStart (c : Char) : Bool := c.isAlpha || c == '_' || c == ':'

/-- A character of a name. -/
def isNameChar (c : Char) : Bool := isNameStart c || c.isDigit || c == '-' || c == '.'

/-- A name, and the rest. -/
def readName (s : Str) : Option (Str × Str) :=
  match s.takeWhile isNameChar with
  | [] => none
  | c :: n => if isNameStart c then some (c :: n, s.dropWhile isNameChar) else none

/-- The characters that character data stand for: entities are replaced, the ends of lines made uniform.  Character data have
no `<`, no other `&`, no `]]>` and no characters that are not allowed. -/
def decode : Str → Option Str
  | [] => some []
  | '&' :: 'l' :: 't' :: ';' :: s => (decode s).map ('<' :: ·)
  | '&' :: 'g' :: 't' :: ';' :: s => (decode s).map ('>' :: ·)
  | '&' :: 'a' :: 'm' :: 'p' :: ';' :: s => (decode s).map ('&' :: ·)
  | '&' :: 'q' :: 'u' :: 'o' :: 't' :: ';' :: s => (decode s).map ('"' :: ·)
  | '&' :: 'a' :: 'p' :: 'o' :: 's' :: ';' :: s => (decode s).map ('\'' :: ·)
  | ']' :: ']' :: '>' :: _ => none
  | '\r' :: '\n' :: s => (decode s).map ('\n' :: ·)
  | '\r' :: s => (decode s).map ('\n' :: ·)
  | c :: s => if c == '&' || c == '<' || !isXmlChar c then none else (decode s).map (c :: ·)

/-- The value of an attribute: white space stands for a blank. -/
def decodeValue (s : Str) : Option Str := (decode s).map (·.map fun c => if isBlank c then ' ' else c)

/-- The attributes of a tag up to its `>` or `/`: each is a name, `=`, and a value between quotes, after some white space. -/
def readAttrs : Nat → Str → Option (List (Str × Str) × Str)
  | 0, _ => none
  | fuel + 1, s =>
    let r := s.dropWhile isBlank
    match r with
    | '>' :: _ => some ([], r)
    | '/' :: _ => some ([], r)
    | _ =>
      if r.length = s.length then none else
      match readName r with
      | none => none
      | some (name, r) =>
        match r.dropWhile isBlank with
        | '=' :: r =>
          match r.dropWhile isBlank with
          | quote :: r =>
            if quote == '"' || quote == '\'' then
              match r.dropWhile (· != quote), decodeValue (r.takeWhile (· != quote)) with
              | _ :: r, some value => (readAttrs fuel r).map fun (as, r) => ((name, value) :: as, r)
              | _, _ => none
            else none
          | _ => none
        | _ => none

/-- A tag, after its `<`: name, attributes with different names, whether it is that of an empty element, and the rest. -/
def readTag (s : Str) : Option (Str × List (Str × Str) × Bool × Str) :=
  match readName s with
  | none => none
  | some (name, r) =>
    match readAttrs (r.length + 1) r with
    | none => none
    | some (attrs, r) =>
      if (attrs.map (·.1)).Nodup then
        match r with
        | '>' :: r => some (name, attrs, false, r)
        | '/' :: '>' :: r => some (name, attrs, true, r)
        | _ => none
      else none

/-- A closing tag with the given name, and the rest. -/
def readClose (name : Str) : Str → Option Str
  | '<' :: '/' :: s =>
    match readName s with
    | none => none
    | some (n, r) =>
      if n = name then
        match r.dropWhile isBlank with
        | '>' :: r => some r
        | _ => none
      else none
  | _ => none

/-- The content of an element up to a closing tag or the end, and the rest. -/
def readContent : Nat → Str → Option (List Xml × Str)
  | 0, _ => none
  | _ + 1, [] => some ([], [])
  | _ + 1, '<' :: '/' :: s => some ([], '<' :: '/' :: s)
  | fuel + 1, '<' :: s =>
    match readTag s with
    | none => none
    | some (name, attrs, true, r) => (readContent fuel r).map fun (xs, r) => (.elem name attrs [] :: xs, r)
    | some (name, attrs, false, r) =>
      match readContent fuel r with
      | none => none
      | some (inner, r) =>
        match readClose name r with
        | none => none
        | some r => (readContent fuel r).map fun (xs, r) => (.elem name attrs inner :: xs, r)
  | fuel + 1, c :: s =>
    match decode ((c :: s).takeWhile (· != '<')) with
    | none => none
    | some t => (readContent fuel ((c :: s).dropWhile (· != '<'))).map fun (xs, r) => (.text t :: xs, r)

/-- The child elements. -/
def elements : List Xml → List Xml
  | [] => []
  | .text _ :: xs => elements xs
  | .elem n as c :: xs => .elem n as c :: elements xs

/-- The character data. -/
def characters : List Xml → Str
  | [] => []
  | .text s :: xs => s ++ characters xs
  | .elem _ _ _ :: xs => characters xs

/-- A document: one element, with nothing but white space around it. -/
def readXml (s : Str) : Option Xml :=
  match readContent (s.length + 1) s with
  | some (content, []) =>
    if (characters content).all isBlank then
      match elements content with
      | [x] => some x
      | _ => none
    else none
  | _ => none

/-! ## Values of attributes -/

/-- A sequence of decimal digits. -/
def natural (s : Str) : Option Nat :=
  if s ≠ [] ∧ s.all Char.isDigit then some (s.foldl (fun n c => 10 * n + (c.toNat - 48)) 0) else none

/-- Digits, possibly with a point and further digits behind. -/
def unsigned (s : Str) : Option Rat :=
  match s.dropWhile (· != '.') with
  | [] => (natural s).map fun (n : Nat) => (n : Rat)
  | _ :: f =>
    match natural (s.takeWhile (· != '.')), natural f with
    | some n, some d => some ((n : Rat) + (d : Rat) / 10 ^ f.length)
    | _, _ => none

/-- A decimal number, possibly with a minus before it. -/
def decimal : Str → Option Rat
  | '-' :: s => (unsigned s).map (- ·)
  | s => unsigned s

/-- The words of a text. -/
def words (sep : Char → Bool) (s : Str) : List Str := (s.splitOnP sep).filter (· ≠ [])

/-- Read every word. -/
def readAll {α : Type} (read : Str → Option α) : List Str → Option (List α)
  | [] => some []
  | w :: ws =>
    match read w, readAll read ws with
    | some a, some as => some (a :: as)
    | _, _ => none

/-- Numbers separated by commas or white space. -/
def numbers (s : Str) : Option (List Rat) := readAll decimal (words (fun c => c == ',' || isBlank c) s)

/-- The words of path data: `Mx y`, `Lx y`, `Qx y x y`. -/
def pathWords : List Str → Option (List PathCommand)
  | [] => some []
  | ('M' :: x) :: y :: ws =>
    match decimal x, decimal y, pathWords ws with
    | some x, some y, some cs => some (.moveTo ⟨x, y⟩ :: cs)
    | _, _, _ => none
  | ('L' :: x) :: y :: ws =>
    match decimal x, decimal y, pathWords ws with
    | some x, some y, some cs => some (.lineTo ⟨x, y⟩ :: cs)
    | _, _, _ => none
  | ('Q' :: cx) :: cy :: x :: y :: ws =>
    match decimal cx, decimal cy, decimal x, decimal y, pathWords ws with
    | some cx, some cy, some x, some y, some cs => some (.quadTo ⟨cx, cy⟩ ⟨x, y⟩ :: cs)
    | _, _, _, _, _ => none
  | _ => none

/-- What a text says as the value of an attribute. -/
def ValueShown (s : Str) : AttrVal → Prop
  | .str t => s = t
  | .num x => decimal s = some x
  | .nums xs => numbers s = some xs
  | .path cs => pathWords (words isBlank s) = some cs
  | .points ps => numbers s = some (ps.flatMap fun p => [p.x, p.y])

/-- The attributes of a tag are the given ones, in any order. -/
def AttrsShown (attrs : List (Str × AttrVal)) (found : List (Str × Str)) : Prop :=
  (attrs.map (·.1)).Nodup ∧ (found.map (·.1)).Perm (attrs.map (·.1)) ∧
    ∀ k v, (k, v) ∈ attrs → ∃ s, (k, s) ∈ found ∧ ValueShown s v

mutual
/-- An XML tree shows an element: the same name and attributes, the same children, and as character data the same text on
lines of its own, or only white space if the element has no text. -/
def Shows : Element → Xml → Prop
  | .mk name attrs children text, .elem name' attrs' content =>
    name' = name ∧ AttrsShown attrs attrs' ∧ ShowsAll children (elements content) ∧
      match text with
      | some t => characters content = c!"\n" ++ t ++ c!"\n"
      | none => (characters content).all isBlank = true
  | .mk _ _ _ _, .text _ => False

/-- The same for lists. -/
def ShowsAll : List Element → List Xml → Prop
  | [], [] => True
  | e :: es, x :: xs => Shows e x ∧ ShowsAll es xs
  | _, _ => False
end

end Seiren.Spec
