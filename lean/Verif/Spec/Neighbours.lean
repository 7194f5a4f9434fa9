import Verif.Spec.Streets
/-! # Lines with two turns

The line one would draw by hand between two tables that stand side by side: straight out of the first table to the middle of the
gap, up or down there, and straight into the second table. -/

namespace Seiren.Spec

/-- The path runs level from `a` to the vertical line at `x`, along it without turning back, and level to `b`. -/
def Direct (x : Rat) (a b : Point) (ps : List Point) : Prop :=
  ∃ mid : List Point, ps = a :: mid ++ [b] ∧ mid.head? = some ⟨x, a.y⟩ ∧ mid.getLast? = some ⟨x, b.y⟩ ∧ (∀ p ∈ mid, p.x = x) ∧
    (mid.Pairwise (fun p q => p.y < q.y) ∨ mid.Pairwise (fun p q => q.y < p.y))

/-- The number of a table or of the table of a column. -/
def tableNumber : NodeRef → Nat
  | .table k => k
  | .column k _ => k

end Seiren.Spec
