import Verif.Model.BinaryHeap
import Verif.Model.Parser
import Verif.Model.Renderer
/-! # Model of `src/main.rs` (and of the same sequence of calls in the integration tests) -/

namespace Seiren

/-- main.rs:110-130: lay out and render an AST with a new engine; `q` is the priority queue of the search. -/
def drawModule (q : Queue) (m : Module) : Except RenderError Element :=
  let (doc, viewBox) := placeNodes m.intoMir
  let doc := placeTerminalPorts doc
  match drawEdgePath q doc RouteGraph.new with
  | .error p => .error (.panic p)
  | .ok (doc, _) => render (some viewBox) doc

/-- What a run of the program does: the number of errors reported on stderr, and what happens afterwards. -/
structure RunResult where
  /-- main.rs:29-105: number of reports printed to stderr -/
  reports : Nat
  /-- main.rs:109-131: nothing, a drawing on stdout, or a failure (`expect` panics on an error) -/
  drawing : Option (Except RenderError Element)
  deriving Repr

/-- main.rs:26-133, after the source has been read.  (Reading the file and writing to
stdout are not modelled; the text that is written is `stdoutText` in Model/SvgText, the reports are in Model/Reports.) -/
def runMain (q : Queue) (src : Str) : RunResult :=
  let (ast, lexErrs, parseErrs) := parse src
  { reports := lexErrs.length + parseErrs.length
    drawing := ast.map (drawModule q) }

/-- main.rs:133: the process exit status when no panic occurs is success, whatever was reported. -/
def RunResult.exitSuccess (r : RunResult) : Bool :=
  match r.drawing with
  | some (.error _) => false
  | _ => true

end Seiren
