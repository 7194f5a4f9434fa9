import Verif.Model.Layout
/-! # Where tables and columns are expected -/

namespace Seiren.Spec

/-- The children of a node (none if it does not exist). -/
def childrenOf (doc : Document) (id : NodeId) : List NodeId :=
  match doc.nodes[id]? with
  | some n => n.children
  | none => []

/-- The tables of a document, in order. -/
def tables (doc : Document) : List NodeId := childrenOf doc doc.bodyId

/-- A document of tables with lines: the root's children are tables, their children are lines, and no node occurs
twice among them. -/
structure Tabular (doc : Document) : Prop where
  body : ∃ n, doc.nodes[doc.bodyId]? = some n
  isTable : ∀ t ∈ tables doc, ∃ n r, doc.nodes[t]? = some n ∧ n.kind = .record r
  isLine : ∀ t ∈ tables doc, ∀ l ∈ childrenOf doc t, ∃ n f, doc.nodes[l]? = some n ∧ n.kind = .field f
  nodup : (tables doc ++ (tables doc).flatMap (childrenOf doc)).Nodup

/-- The number of lines of each table. -/
def lineCounts (doc : Document) : List Nat := (tables doc).map fun t => (childrenOf doc t).length

/-- The number of lines of the longest table in row `r` (three tables per row). -/
def tallest (ns : List Nat) (r : Nat) : Nat :=
  max (max (ns[3 * r]?.getD 0) (ns[3 * r + 1]?.getD 0)) (ns[3 * r + 2]?.getD 0)

/-- The top of row `r`: the first row starts at 50, the others 80 below the longest table of the row above. -/
def rowTop (ns : List Nat) : Nat → Rat
  | 0 => 50
  | r + 1 => rowTop ns r + 35 * (tallest ns r : Rat) + 80

/-- The expected rectangle of table number `k`, if table `k` has `n` lines. -/
def tableRect (ns : List Nat) (k n : Nat) : Rect :=
  ⟨⟨50 + 380 * ((k % 3 : Nat) : Rat), rowTop ns (k / 3)⟩, ⟨300, 35 * (n : Rat)⟩⟩

/-- The expected rectangle of line `j` of table number `k`. -/
def lineRect (ns : List Nat) (k j : Nat) : Rect :=
  ⟨⟨50 + 380 * ((k % 3 : Nat) : Rat), rowTop ns (k / 3) + 35 * (j : Rat)⟩, ⟨300, 35⟩⟩

/-- The rectangle of a node. -/
def rectOf (doc : Document) (id : NodeId) : Option Rect :=
  match doc.nodes[id]? with
  | some n => match n.origin, n.size with
    | some o, some s => some ⟨o, s⟩
    | _, _ => none
  | none => none

/-- A node without its position and size. -/
def forgetPos (n : NodeData) : NodeData := { n with origin := none, size := none }

end Seiren.Spec
