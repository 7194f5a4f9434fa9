import Verif.Model.Main
/-! # Specification: modules and drawings that differ only in names -/

namespace Seiren.Spec

/-- A path under new names: `f` renames the tables, `g e` the columns of the table `e`. -/
def renamePath (f : Str → Str) (g : Str → Str → Str) : EntityPath → EntityPath
  | .entity e => .entity (f e)
  | .field e n => .field (f e) (g e n)

/-- The entry `b` is the entry `a` under new names; `R` relates the columns (apart from their names). -/
inductive Renamed (f : Str → Str) (g : Str → Str → Str) (R : EntityField → EntityField → Prop) :
    ModuleEntry → ModuleEntry → Prop
  | table (a b : EntityDefinition) (name : b.name = f a.name)
      (columns : List.Forall₂ (fun x y => y.name = g a.name x.name ∧ R x y) a.fields b.fields) :
      Renamed f g R (.definition a) (.definition b)
  | relation (r : EntityRelation) :
      Renamed f g R (.relation r) (.relation ⟨renamePath f g r.startPath, renamePath f g r.endPath⟩)

/-- `b` is `a` with new names for its tables and columns (and any name for the module itself). -/
def Renaming (f : Str → Str) (g : Str → Str → Str) (a b : Module) : Prop :=
  List.Forall₂ (Renamed f g fun x y => x.fieldType = y.fieldType ∧ x.fieldKey = y.fieldKey) a.entries b.entries

/-- `b` has the tables, columns and relations of `a`, under new names and with arbitrary types and keys. -/
def SameSkeleton (f : Str → Str) (g : Str → Str → Str) (a b : Module) : Prop :=
  List.Forall₂ (Renamed f g fun _ _ => True) a.entries b.entries

mutual
/-- The element without its texts. -/
def withoutTexts : Element → Element
  | .mk n as cs t => .mk n as (withoutTextsAll cs) (t.map fun _ => [])
/-- The elements without their texts. -/
def withoutTextsAll : List Element → List Element
  | [] => []
  | e :: es => withoutTexts e :: withoutTextsAll es
end

/-- Where the parts of a document are: of every node the corner, the size, the ports and the children, and all edges with
their routes. -/
def geometry (d : Document) :
    List (Option Point × Option Size × List TerminalPort × List NodeId) × List EdgeData :=
  (d.nodes.map fun n => (n.origin, n.size, n.terminalPorts, n.children), d.edges)

end Seiren.Spec
