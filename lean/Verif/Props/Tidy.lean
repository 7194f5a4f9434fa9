import Verif.Props.DebugText
/-! # C90: how the text is laid out -/

namespace Seiren
open Spec

/-- **C90.** If the names of tables and columns are plain text, then the text written for a drawn module is read as a tree in which the attributes of
every element stand in ascending order of their names, and every element and every text stands on lines of its own: exactly one
line break before each element and before each closing tag of an element with content, and no other white space between elements.  Printing that
tree without any further white space, with one blank before each attribute and values between double quotes, gives the text again: nothing else
is in it. -/
theorem C90_tidy {q : Queue} {QI : List Entry → Prop} (hq : q.Lawful QI) (m : Module) (hne : definitions m.entries ≠ [])
    (hsize : picHeight (lineNumbers (definitions m.entries)) ≤ 1000000000) (el : Element) (h : drawModule q m = .ok el)
    (hn : ∀ t ∈ shownNames (definitions m.entries), PlainText t) :
    ∃ x, readXml (svgText id el) = some x ∧ Tidy x ∧ svgText id el = printXml x := by
  obtain ⟨relations, rfl, hrel⟩ := C58_picture hq m hne hsize el h
  obtain ⟨x, h1, -, h2, h3⟩ := readXml_tidy id _ (goodPicture _ _ _ _ hrel (fun t ht => goodText_plain (hn t ht))
    (fun t => goodText_plain (plainOk_spec (by cases t <;> decide))) (fun k => goodText_plain (plainOk_spec (by cases k <;> decide))))
  exact ⟨x, h1, h2, h3 fun _ => rfl⟩

/-- **C90** for the debug drawing. -/
theorem C90_tidy_debug {q : Queue} {QI : List Entry → Prop} (hq : q.Lawful QI) (m : Module) (hne : definitions m.entries ≠ [])
    (hsize : picHeight (lineNumbers (definitions m.entries)) ≤ 1000000000) (el : Element) (h : drawModuleDebug q m = .ok el)
    (hn : ∀ t ∈ shownNames (definitions m.entries), PlainText t) :
    ∃ x, readXml (svgText id el) = some x ∧ Tidy x ∧ svgText id el = printXml x := by
  obtain ⟨x, h1, -, h2, h3⟩ := readXml_tidy id _ (debug_good hq m hne hsize el h id (fun t ht => goodText_plain (hn t ht))
    (fun t => goodText_plain (plainOk_spec (by cases t <;> decide))) (fun k => goodText_plain (plainOk_spec (by cases k <;> decide)))
    (fun n => (goodText_digits n).1))
  exact ⟨x, h1, h2, h3 fun _ => rfl⟩

/-! A module meeting the hypotheses is that of C64; the tree has elements with several attributes, with children and with text. -/
set_option maxRecDepth 100000 in
example : (shownNames (definitions threeTables.entries)).all plainOk = true ∧ definitions threeTables.entries ≠ [] ∧
    ((drawModule BinHeap.queue threeTables).toOption.map fun el => (el.children.map fun e => (e.attrs.length, e.children.length, e.text.isSome)).take 6) =
      some [(3, 0, false), (0, 3, false), (8, 0, false), (6, 0, false), (7, 0, true), (6, 0, false)] := by
  decide +kernel

/-- The order is that of the code points: upper case letters and the hyphen stand before lower case letters. -/
example : codes c!"font-family" < codes c!"font-size" ∧ codes c!"viewBox" < codes c!"xmlns" ∧ codes c!"x" < codes c!"x1" ∧
    codes c!"Z" < codes c!"a" := by decide

end Seiren
