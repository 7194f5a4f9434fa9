import Verif.Model.Program
import Verif.Proofs.Utf8
import Verif.Props.SvgText
/-! # C76, C77: the program as a whole, with its input and output as bytes -/

namespace Seiren
open Spec

/-! ## C77 -/

/-- **C77.** Exactly the sequences of bytes are accepted as a source that are the UTF-8 bytes of a text, and the source is that
text.  Every text has its bytes, and they determine it. -/
theorem C77_utf8 :
    (∀ (bs : List UInt8) (s : Str), readToString (some bs) = some s ↔ TextBytes s bs) ∧
    (∀ s : Str, ∃ bs, TextBytes s bs) ∧
    (∀ (s s' : Str) (bs : List UInt8), TextBytes s bs → TextBytes s' bs → s = s') ∧
    ∀ (s : Str) (bs bs' : List UInt8), TextBytes s bs → TextBytes s bs' → bs = bs' := by
  have key : ∀ (bs : List UInt8) (s : Str), readToString (some bs) = some s ↔ TextBytes s bs := by
    intro bs s
    rw [textBytes_iff]
    constructor
    · exact decode_some bs s
    · rintro rfl
      exact decode_encode s
  refine ⟨key, fun s => ⟨_, (textBytes_iff s _).mpr rfl⟩, ?_, ?_⟩
  · intro s s' bs h h'
    rw [← key] at h h'
    rw [h] at h'
    exact Option.some.inj h'
  · intro s bs bs' h h'
    rw [textBytes_iff] at h h'
    rw [h, h']

/-- A text with characters of one, two, three and four bytes, and its bytes. -/
example : TextBytes c!"aé€😀" [0x61, 0xC3, 0xA9, 0xE2, 0x82, 0xAC, 0xF0, 0x9F, 0x98, 0x80] :=
  (C77_utf8.1 _ _).mp (by decide +kernel)

/-- Bytes that are no text: a lone continuation byte, an overlong `/`, a surrogate, a code point that is too large, and a
sequence that is cut off. -/
example : ∀ bs ∈ [[0x80], [0xC0, 0xAF], [0xED, 0xA0, 0x80], [0xF4, 0x90, 0x80, 0x80], [0x61, 0xE2, 0x82]],
    ¬ ∃ s, TextBytes s (bs.map UInt8.ofNat) := by
  intro bs hb
  have h : ∀ bs ∈ [[0x80], [0xC0, 0xAF], [0xED, 0xA0, 0x80], [0xF4, 0x90, 0x80, 0x80], [0x61, 0xE2, 0x82]],
      readToString (some (bs.map UInt8.ofNat)) = none := by decide +kernel
  rintro ⟨s, hs⟩
  have := (C77_utf8.1 _ _).mpr hs
  rw [h bs hb] at this
  cases this

/-! ## C76 -/

/-- The source of a run and the name it is reported under: the file named by the first argument if there is one, otherwise
standard input. -/
inductive Spec.InputOf (w : World) : Str → Option (List UInt8) → Prop where
  | file {program path : Str} {more : List Str} (h : w.args = program :: path :: more) : InputOf w path (w.file path)
  | stdin (h : w.args.length ≤ 1) : InputOf w c!"(stdin)" w.stdin

/-- Every run has a source, and only one. -/
theorem Spec.InputOf.unique (w : World) : ∃ name input, InputOf w name input ∧
    ∀ name' input', InputOf w name' input' → name' = name ∧ input' = input := by
  cases h : w.args with
  | nil => 
    refine ⟨_, _, .stdin (by simp [h]), ?_⟩
    rintro _ _ (h' | h')
    · rw [h] at h'; cases h'
    · exact ⟨rfl, rfl⟩
  | cons program l =>
    cases l with
    | nil =>
      refine ⟨_, _, .stdin (by simp [h]), ?_⟩
      rintro _ _ (h' | h')
      · rw [h] at h'; cases h'
      · exact ⟨rfl, rfl⟩
    | cons path more =>
      refine ⟨_, _, .file h, ?_⟩
      rintro _ _ (h' | h')
      · rw [h] at h'; cases h'; exact ⟨rfl, rfl⟩
      · rw [h] at h'; simp at h'

theorem runProgram_input {w : World} {name : Str} {input : Option (List UInt8)} (h : InputOf w name input) (q : Queue)
    (esc : Str → Str) : runProgram q esc w = finishMain q esc name (readToString input) := by
  cases h with
  | file h => rw [runProgram, h]; rfl
  | stdin h => rw [runProgram, List.getElem?_eq_none (by omega)]

/-- **C76.** What a run of the program does.  The source is the file named by the first argument, or standard input; nothing else
matters.  If it cannot be read or is not UTF-8, the program reports nothing, writes nothing and fails.  Otherwise it
reports the errors of the source under the name of the file.  If the source contains no module, nothing is written and the program
succeeds; if it contains one that can be drawn, the UTF-8 bytes of the drawing are written and the program succeeds; if it contains one
that cannot be drawn, nothing is written and the program panics. -/
theorem C76_program (q : Queue) (esc : Str → Str) (w : World) (name : Str) (input : Option (List UInt8)) (hin : InputOf w name input) :
    ((¬ ∃ bs s, input = some bs ∧ TextBytes s bs) → runProgram q esc w = ⟨name, [], [], .failure⟩) ∧
    ∀ bs s, input = some bs → TextBytes s bs →
      (runProgram q esc w).filename = name ∧ (runProgram q esc w).errors = errorsOf s ∧
      ((¬ ∃ m, Contains s m) → (runProgram q esc w).stdout = [] ∧ (runProgram q esc w).exit = .success) ∧
      ∀ m, Contains s m →
        (∀ el, drawModule q m = .ok el →
          TextBytes (svgText esc el) (runProgram q esc w).stdout ∧ (runProgram q esc w).exit = .success) ∧
        ∀ e, drawModule q m = .error e → (runProgram q esc w).stdout = [] ∧ (runProgram q esc w).exit = .panic := by
  rw [runProgram_input hin]
  constructor
  · intro h
    have : readToString input = none := by
      cases hr : readToString input with
      | none => rfl
      | some s =>
        cases input with
        | none => cases hr
        | some bs => exact absurd ⟨bs, s, rfl, (C77_utf8.1 bs s).mp hr⟩ h
    rw [this]; rfl
  · rintro bs s rfl hs
    rw [(C77_utf8.1 bs s).mpr hs]
    have hf : (finishMain q esc name (some s)).filename = name ∧ (finishMain q esc name (some s)).errors = errorsOf s := by
      rw [finishMain]
      cases stdoutText q esc s <;> exact ⟨rfl, rfl⟩
    refine ⟨hf.1, hf.2, ?_, ?_⟩
    · intro hn
      have hp : (parse s).1 = none := by
        cases hp : (parse s).1 with
        | none => rfl
        | some m => exact absurd ⟨m, (parse_contains _ _).mp hp⟩ hn
      rw [finishMain, stdoutText, runMain_drawing, hp]
      exact ⟨rfl, rfl⟩
    · intro m hm
      have hd : (runMain q s).drawing = some (drawModule q m) := by
        rw [runMain_drawing, (parse_contains s m).mpr hm]; rfl
      constructor
      · intro el hel
        rw [finishMain, stdoutText, hd, hel]
        exact ⟨(textBytes_iff _ _).mpr rfl, rfl⟩
      · intro e he
        rw [finishMain, stdoutText, hd, he]
        exact ⟨rfl, rfl⟩

/-- **C76, from bytes to bytes.** If the source is the bytes of a text without back quotes that contains a module with a table, and
the program succeeds, then what it writes are the UTF-8 bytes of an XML document that shows the picture of the module. -/
theorem C76_bytes {q : Queue} {QI : List Entry → Prop} (hq : q.Lawful QI) (w : World) (name : Str) (bs : List UInt8)
    (hin : InputOf w name (some bs)) (src : Str) (hbs : TextBytes src bs) (hsrc : '`' ∉ src) (m : Module) (hm : Contains src m)
    (hne : definitions m.entries ≠ []) (hsize : picHeight (lineNumbers (definitions m.entries)) ≤ 1000000000)
    (hexit : (runProgram q id w).exit = .success) :
    ∃ (text : Str) (x : Xml) (relations : List (List Element)), TextBytes text (runProgram q id w).stdout ∧ readXml text = some x ∧
      Shows (svgDocument (picture (definitions m.entries) relations.flatten)) x ∧
      List.Forall₂ (ShowsRelation (lineNumbers (definitions m.entries)) (connections [] m.entries)) (connections [] m.entries) relations := by
  have hdec := (C77_utf8.1 bs src).mpr hbs
  rw [runProgram_input hin, hdec] at hexit ⊢
  cases ht : stdoutText q id src with
  | none => rw [finishMain, ht] at hexit; cases hexit
  | some text =>
    obtain ⟨x, relations, h1, h2, h3⟩ := C65_output_partial hq src hsrc m hm hne hsize text ht
    refine ⟨text, x, relations, ?_, h1, h2, h3⟩
    rw [finishMain, ht]
    exact (textBytes_iff _ _).mpr rfl

/-- A world with one file. -/
def oneFile (args : List Str) (name : Str) (bytes : List UInt8) : World :=
  { args := args, file := fun p => if p = name then some bytes else none, stdin := none }

set_option maxRecDepth 100000 in
/-- A file that is drawn, given by the first argument, whatever follows; a file that does not exist; a file that is not UTF-8;
no argument, and standard input cannot be read; a file with an error; a file whose module cannot be drawn. -/
example :
    (let o := runProgram BinHeap.queue id (oneFile [c!"seiren", c!"a.erd", c!"-v"] c!"a.erd" (encodeUtf8 c!"erd { `é` { } }"));
      o.filename = c!"a.erd" ∧ o.errors = [] ∧ 100 < o.stdout.length ∧ o.exit = .success) ∧
    runProgram BinHeap.queue id (oneFile [c!"seiren", c!"b.erd"] c!"a.erd" (encodeUtf8 c!"erd { a { } }")) = ⟨c!"b.erd", [], [], .failure⟩ ∧
    runProgram BinHeap.queue id (oneFile [c!"seiren", c!"a.erd"] c!"a.erd" [0x65, 0xFF]) = ⟨c!"a.erd", [], [], .failure⟩ ∧
    runProgram BinHeap.queue id (oneFile [c!"seiren"] c!"a.erd" []) = ⟨c!"(stdin)", [], [], .failure⟩ ∧
    (let o := runProgram BinHeap.queue id (oneFile [c!"seiren", c!"a.erd"] c!"a.erd" (encodeUtf8 c!"erd {"));
      o.errors.length = 1 ∧ o.stdout = [] ∧ o.exit = .success) ∧
    (let o := runProgram BinHeap.queue id (oneFile [c!"seiren", c!"a.erd"] c!"a.erd" (encodeUtf8 c!"erd { a { b int }\n a.b o--o a.b }"));
      o.errors = [] ∧ o.stdout = [] ∧ o.exit = .panic) := by
  decide +kernel

set_option maxRecDepth 100000 in
/-- A byte order mark is not removed but reported; after it a comment is read as if it were not one (see C56), so that here the
module in the comment is drawn: with the mark, the file says the same as its second line alone. -/
example :
    let marked := runProgram BinHeap.queue id (oneFile [c!"seiren", c!"a.erd"] c!"a.erd"
      ([0xEF, 0xBB, 0xBF] ++ encodeUtf8 c!"// erd { a { } }\nerd { b { } }"))
    let alone := runProgram BinHeap.queue id (oneFile [c!"seiren", c!"a.erd"] c!"a.erd" (encodeUtf8 c!"erd { a { } }"))
    alone.errors = [] ∧ marked.errors.length = 1 ∧ marked.stdout = alone.stdout ∧ alone.exit = .success := by
  decide +kernel

end Seiren
