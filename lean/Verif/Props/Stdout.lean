import Verif.Model.Stdout
import Verif.Proofs.Prefix
import Verif.Props.Program
import Verif.Props.SvgExact
/-! # C82: what is written if the output does not take everything -/

namespace Seiren
open Spec

/-! ## The buffered output -/

theorem splitLastLine_some {bs lines tail : List UInt8} (h : splitLastLine bs = some (lines, tail)) : bs = lines ++ tail := by
  unfold splitLastLine at h
  simp only at h
  split at h
  · cases h
  next hne =>
    cases h
    generalize ht : bs.reverse.takeWhile (· != 10) = t at *
    have := List.takeWhile_append_dropWhile (p := (· != 10)) (l := bs.reverse)
    rw [ht] at this
    have hb : bs = (bs.reverse.dropWhile (· != 10)).reverse ++ t.reverse := by
      rw [← List.reverse_append, this, List.reverse_reverse]
    have hl : bs.length - t.reverse.length = (bs.reverse.dropWhile (· != 10)).reverse.length := by
      have := congrArg List.length hb
      simp only [List.length_append] at this
      omega
    rw [hl]
    generalize (bs.reverse.dropWhile (· != 10)).reverse = u at *
    rw [hb, List.take_left]

theorem splitLastLine_last (a b : List UInt8) (hb : ∀ x ∈ b, x ≠ 10) : splitLastLine (a ++ 10 :: b) = some (a ++ [10], b) := by
  have ht : ((a ++ 10 :: b).reverse.takeWhile (· != 10)).reverse = b := by
    rw [List.reverse_append, List.reverse_cons, List.append_assoc, List.singleton_append, List.takeWhile_append_of_pos (by simpa using hb)]
    simp
  unfold splitLastLine
  simp only [ht]
  rw [if_neg (by simp; omega)]
  congr 2
  have : (a ++ 10 :: b).length - b.length = (a ++ [10]).length := by simp; omega
  rw [this, show a ++ 10 :: b = (a ++ [10]) ++ b by simp, List.take_left]

theorem bufWriter_fresh (room : Nat) (pre bs : List UInt8) :
    ((BufWriter.mk [] ⟨room, pre⟩).writeAll bs).1.atExit = pre ++ bs.take room ∧
      (((BufWriter.mk [] ⟨room, pre⟩).writeAll bs).2 = true ↔ bs.length < bufferCapacity ∨ bs.length ≤ room) := by
  unfold BufWriter.writeAll
  simp only [List.length_nil, Nat.sub_zero]
  split
  next h => simp [BufWriter.atExit, BufWriter.flushBuf, Device.writeAll, h]
  next h =>
    by_cases h' : bufferCapacity < bs.length
    · rw [if_pos h']
      simp [BufWriter.atExit, BufWriter.flushBuf, Device.writeAll, h'.le, h]
    · rw [if_neg h']
      have : bufferCapacity ≤ bs.length := by omega
      simp [BufWriter.atExit, BufWriter.flushBuf, Device.writeAll, this, h]

/-- A single `write_all` to standard output and the end of the process write as much as the device takes. -/
theorem writeLines_atExit (room : Nat) (bs : List UInt8) :
    ((BufWriter.mk [] ⟨room, []⟩).writeLines bs).1.atExit = bs.take room := by
  unfold BufWriter.writeLines
  split
  next h =>
    simpa using (bufWriter_fresh room [] bs).1
  next lines tail h =>
    rw [splitLastLine_some h]
    simp only [List.isEmpty_nil, if_true, Device.writeAll, List.nil_append]
    by_cases hl : lines.length ≤ room
    · simp only [hl, decide_true, Bool.not_true, Bool.false_eq_true, if_false]
      rw [(bufWriter_fresh _ _ _).1, List.take_append]
    · simp [hl, BufWriter.atExit, BufWriter.flushBuf, Device.writeAll, List.take_append, show room - lines.length = 0 by omega]

/-- It succeeds if and only if the lines are taken: the last line may be lost. -/
theorem writeLines_ok (room : Nat) (a b : List UInt8) (hb : ∀ x ∈ b, x ≠ 10) (hlen : b.length < bufferCapacity) :
    ((BufWriter.mk [] ⟨room, []⟩).writeLines (a ++ 10 :: b)).2 = true ↔ a.length + 1 ≤ room := by
  unfold BufWriter.writeLines
  rw [splitLastLine_last a b hb]
  simp only [List.isEmpty_nil, if_true, Device.writeAll, List.nil_append]
  by_cases hl : (a ++ [10]).length ≤ room
  · simp only [hl, decide_true, Bool.not_true, Bool.false_eq_true, if_false]
    rw [(bufWriter_fresh _ _ _).2]
    simp at hl
    simp [hl, hlen]
  · simp only [List.length_append, List.length_singleton] at hl
    simp [hl]

/-! ## The end of the drawing -/

theorem render_root {vb : Option Rect} {doc : Document} {el : Element} (h : render vb doc = .ok el) :
    ∃ as c cs, el = .mk c!"svg" as (c :: cs) none := by
  unfold render at h
  split at h
  · cases h
  · split at h
    · cases h
    · split at h
      · cases h
      · cases h
        exact ⟨_, _, _, rfl⟩

theorem drawModule_root {q : Queue} {m : Module} {el : Element} (h : drawModule q m = .ok el) :
    ∃ as c cs, el = .mk c!"svg" as (c :: cs) none := by
  unfold drawModule at h
  simp only at h
  split at h
  · cases h
  · exact render_root h

/-- The last line of a drawing is `</svg>`. -/
theorem svgText_end {q : Queue} {m : Module} {el : Element} (h : drawModule q m = .ok el) (esc : Str → Str) :
    ∃ s, svgText esc el = '<' :: (s ++ c!"\n</svg>") := by
  obtain ⟨as, c, cs, rfl⟩ := drawModule_root h
  rw [svgText, withNamespace, Element.toText]
  simp only [List.isEmpty_cons, Bool.false_and, Bool.false_eq_true, if_false, Option.map_none, Option.getD_none]
  exact ⟨c!"svg" ++ (sortAttrs (((c!"xmlns", AttrVal.str c!"http://www.w3.org/2000/svg") :: as).map fun a => (a.1, a.2.display))).flatMap attrText ++
    (c!">" ++ childrenText esc (c :: cs)), by simp⟩

theorem encodeUtf8_append (s t : Str) : encodeUtf8 (s ++ t) = encodeUtf8 s ++ encodeUtf8 t := by simp [encodeUtf8]

/-! ## C82 -/

/-- **C82, exactly.** What a run does if only some of the reports can be printed and only some bytes can be written, compared with
a run where everything can.  If a report cannot be printed, the program panics and writes nothing.  Otherwise it
reports the same errors and writes the same bytes as far as they are taken.  The exit is the same, except that the program panics if
more than six bytes could not be written. -/
theorem C82_devices (q : Queue) (esc : Str → Str) (w : World) (d : Devices) :
    let whole := runProgram q esc w
    let run := runProgramOn q esc w d
    run.filename = whole.filename ∧ run.errors = whole.errors.take d.reports ∧
    (d.reports < whole.errors.length → run.stdout = [] ∧ run.exit = .panic) ∧
    (whole.errors.length ≤ d.reports → run.stdout = whole.stdout.take d.room ∧
      (whole.stdout.length ≤ d.room + 6 → run.exit = whole.exit) ∧ (d.room + 6 < whole.stdout.length → run.exit = .panic)) := by
  suffices H : ∀ name src, let whole := finishMain q esc name src
      let run := finishMainOn q esc d name src
      run.filename = whole.filename ∧ run.errors = whole.errors.take d.reports ∧
      (d.reports < whole.errors.length → run.stdout = [] ∧ run.exit = .panic) ∧
      (whole.errors.length ≤ d.reports → run.stdout = whole.stdout.take d.room ∧
        (whole.stdout.length ≤ d.room + 6 → run.exit = whole.exit) ∧ (d.room + 6 < whole.stdout.length → run.exit = .panic)) by
    unfold runProgram runProgramOn
    cases w.args[1]? with
    | none => exact H _ _
    | some path => exact H _ _
  intro name src
  cases src with
  | none => simp [finishMain, finishMainOn]
  | some src =>
    have herr : (finishMain q esc name (some src)).errors = errorsOf src := by
      rw [finishMain]; cases stdoutText q esc src <;> rfl
    have hname : (finishMain q esc name (some src)).filename = name := by
      rw [finishMain]; cases stdoutText q esc src <;> rfl
    simp only [herr, hname]
    rw [finishMainOn]
    split
    next h => exact ⟨rfl, rfl, fun _ => ⟨rfl, rfl⟩, fun h' => by omega⟩
    next h =>
      have ht : (errorsOf src).take d.reports = errorsOf src := List.take_of_length_le (by omega)
      rw [ht]
      cases hd : (runMain q src).drawing with
      | none => simp [finishMain, stdoutText, hd, h, encodeUtf8]
      | some r =>
        cases r with
        | error e => simp [finishMain, stdoutText, hd, h]
        | ok el =>
          obtain ⟨m, hm⟩ : ∃ m, drawModule q m = .ok el := by
            rw [runMain_drawing] at hd
            obtain ⟨m, -, hm⟩ := Option.map_eq_some_iff.mp hd
            exact ⟨m, hm⟩
          obtain ⟨s, hs⟩ := svgText_end hm esc
          have hb : encodeUtf8 (svgText esc el) = encodeUtf8 ('<' :: s) ++ 10 :: [60, 47, 115, 118, 103, 62] := by
            rw [hs, ← List.cons_append, encodeUtf8_append]; rfl
          have hok := writeLines_ok d.room (encodeUtf8 ('<' :: s)) [60, 47, 115, 118, 103, 62] (by decide) (by decide)
          have hat := writeLines_atExit d.room (encodeUtf8 (svgText esc el))
          rw [← hb] at hok
          simp only [finishMain, stdoutText, hd]
          refine ⟨trivial, trivial, fun h' => absurd h' h, fun _ => ⟨hat, fun hl => ?_, fun hl => ?_⟩⟩
          · rw [if_pos (hok.mpr (by rw [hb] at hl; simp at hl; omega))]
          · rw [if_neg]
            intro e
            have := hok.mp e
            rw [hb] at hl
            simp at hl
            omega

/-- **C82, what is true.** A run that succeeds has written everything but at most the last six bytes. -/
theorem C82_success_partial (q : Queue) (esc : Str → Str) (w : World) (d : Devices) (h : (runProgramOn q esc w d).exit = .success) :
    (runProgram q esc w).exit = .success ∧ ∃ lost : List UInt8, lost.length ≤ 6 ∧
      (runProgram q esc w).stdout = (runProgramOn q esc w d).stdout ++ lost := by
  obtain ⟨-, -, h1, h2⟩ := C82_devices q esc w d
  have hr : (runProgram q esc w).errors.length ≤ d.reports := by
    by_contra hc
    rw [(h1 (by omega)).2] at h
    cases h
  obtain ⟨h3, h4, h5⟩ := h2 hr
  have hl : (runProgram q esc w).stdout.length ≤ d.room + 6 := by
    by_contra hc
    rw [h5 (by omega)] at h
    cases h
  refine ⟨by rw [← h4 hl]; exact h, (runProgram q esc w).stdout.drop d.room, by simp; omega, ?_⟩
  rw [h3, List.take_append_drop]

/-- **C82, what is lost.** Whenever the program writes something at all, it also succeeds on devices that are full up to six bytes
too early, and then the output is not complete. -/
theorem C82_cut (q : Queue) (esc : Str → Str) (w : World) (hw : (runProgram q esc w).exit = .success)
    (d : Devices) (hr : (runProgram q esc w).errors.length ≤ d.reports)
    (h1 : (runProgram q esc w).stdout.length ≤ d.room + 6) (h2 : d.room < (runProgram q esc w).stdout.length) :
    (runProgramOn q esc w d).exit = .success ∧ (runProgramOn q esc w d).stdout ≠ (runProgram q esc w).stdout := by
  obtain ⟨-, -, -, h⟩ := C82_devices q esc w d
  obtain ⟨h3, h4, -⟩ := h hr
  refine ⟨by rw [h4 h1, hw], fun e => ?_⟩
  rw [h3] at e
  have := congrArg List.length e
  simp at this
  omega

/-- The claim that is false: a run that succeeds has written everything that it would write if the device took everything. -/
def Spec.SuccessIsComplete (q : Queue) (esc : Str → Str) : Prop :=
  ∀ (w : World) (d : Devices), (runProgramOn q esc w d).exit = .success → (runProgramOn q esc w d).stdout = (runProgram q esc w).stdout

/-- **C82 is false.** On a device that is full before the end of the last line, the program succeeds although the drawing is cut
off: what is in the buffer of standard output is written when the process ends, and errors are ignored then. -/
theorem C82_refuted {q : Queue} {QI : List Entry → Prop} (hq : q.Lawful QI) (esc : Str → Str) : ¬ SuccessIsComplete q esc := by
  intro hall
  obtain ⟨src, m, el, hp, -, hel, -, -⟩ := C80_every_name hq c!"&" (fun h => (h.1 '&' (by decide)).2.2.1 rfl)
  have ht : stdoutText q esc src = some (svgText esc el) := by
    rw [stdoutText, runMain_drawing, hp]
    simp only [Option.map_some, hel]
  have hrun : runProgram q esc (oneFile [c!"seiren", c!"a.erd"] c!"a.erd" (encodeUtf8 src)) =
      ⟨c!"a.erd", errorsOf src, encodeUtf8 (svgText esc el), .success⟩ := by
    rw [runProgram_input (.file rfl)]
    rw [show (oneFile [c!"seiren", c!"a.erd"] c!"a.erd" (encodeUtf8 src)).file c!"a.erd" = some (encodeUtf8 src) from by
      simp [oneFile], (C77_utf8.1 _ _).mpr ((textBytes_iff _ _).mpr rfl), finishMain, ht]
  obtain ⟨s, hs⟩ := svgText_end hel esc
  have hlen : 6 < (encodeUtf8 (svgText esc el)).length := by
    rw [hs, ← List.cons_append, encodeUtf8_append, List.length_append]
    have : (encodeUtf8 c!"\n</svg>").length = 7 := by decide
    omega
  have key := C82_cut q esc (oneFile [c!"seiren", c!"a.erd"] c!"a.erd" (encodeUtf8 src)) (by rw [hrun])
    ⟨(errorsOf src).length, (encodeUtf8 (svgText esc el)).length - 1⟩ (by rw [hrun])
    (by rw [hrun]; dsimp only; omega) (by rw [hrun]; dsimp only; omega)
  exact key.2 (hall _ _ key.1)

theorem decode_encode_append (s : Str) (rest : List UInt8) : decodeUtf8 (encodeUtf8 s ++ rest) = (decodeUtf8 rest).map (s ++ ·) := by
  induction s with
  | nil => simp [encodeUtf8]
  | cons c s ih =>
    rw [show encodeUtf8 (c :: s) ++ rest = encodeChar c ++ (encodeUtf8 s ++ rest) by simp [encodeUtf8], decode_encodeChar, ih]
    simp [Option.map_map, Function.comp_def]

/-- What is written is nothing, or begins with `<` and ends with `</svg>`. -/
theorem runProgram_text (q : Queue) (esc : Str → Str) (w : World) : (runProgram q esc w).stdout = [] ∨
    ∃ v, (runProgram q esc w).stdout = encodeUtf8 ('<' :: (v ++ c!"\n</svg>")) := by
  suffices H : ∀ name src, (finishMain q esc name src).stdout = [] ∨
      ∃ v, (finishMain q esc name src).stdout = encodeUtf8 ('<' :: (v ++ c!"\n</svg>")) by
    unfold runProgram
    split <;> exact H _ _
  intro name src
  cases src with
  | none => exact .inl rfl
  | some src =>
    rw [finishMain, stdoutText]
    cases hd : (runMain q src).drawing with
    | none => exact .inl rfl
    | some r =>
      cases r with
      | error e => exact .inl rfl
      | ok el =>
        right
        rw [runMain_drawing] at hd
        obtain ⟨m, -, hm⟩ := Option.map_eq_some_iff.mp hd
        obtain ⟨v, hv⟩ := svgText_end hm esc
        exact ⟨v, by rw [← hv]⟩

/-- **C82, what a reader can see.** If the complete drawing can be read as XML, then a drawing that is cut off anywhere cannot:
what was written is not UTF-8 or not XML. -/
theorem C82_truncated (q : Queue) (esc : Str → Str) (w : World) (d : Devices) (text : Str) (x : Xml)
    (hw : TextBytes text (runProgram q esc w).stdout) (hx : readXml text = some x)
    (hcut : (runProgramOn q esc w d).stdout ≠ (runProgram q esc w).stdout) :
    ¬ ∃ (s : Str) (y : Xml), TextBytes s (runProgramOn q esc w d).stdout ∧ readXml s = some y := by
  rintro ⟨s, y, hs, hy⟩
  rw [textBytes_iff] at hw hs
  -- a prefix
  obtain ⟨-, -, h1, h2⟩ := C82_devices q esc w d
  have hpre : ∃ rest, (runProgram q esc w).stdout = (runProgramOn q esc w d).stdout ++ rest := by
    by_cases hr : d.reports < (runProgram q esc w).errors.length
    · rw [(h1 hr).1]; exact ⟨_, rfl⟩
    · rw [(h2 (by omega)).1]; exact ⟨_, (List.take_append_drop _ _).symm⟩
  obtain ⟨rest, hrest⟩ := hpre
  have hdec := decode_encode text
  rw [← hw, hrest, hs, decode_encode_append] at hdec
  obtain ⟨u, hu, rfl⟩ := Option.map_eq_some_iff.mp hdec
  have hrest0 : rest = encodeUtf8 u := decode_some _ _ hu
  -- the complete text
  have hu0 : u ≠ [] := by
    rintro rfl
    rw [hrest0] at hrest
    exact hcut (by rw [hrest]; simp [encodeUtf8])
  have hne : s ≠ [] := by rintro rfl; cases hy
  obtain ⟨v, hv⟩ : ∃ v, s ++ u = '<' :: (v ++ c!"\n</svg>") := by
    rcases runProgram_text q esc w with h | ⟨v, h⟩
    · rw [h] at hw
      have := decode_encode (s ++ u)
      rw [← hw] at this
      simp only [decodeUtf8, Option.some.injEq] at this
      exact absurd (List.append_eq_nil_iff.mp this.symm).1 hne
    · refine ⟨v, ?_⟩
      have e1 := decode_encode (s ++ u)
      rw [← hw, h, decode_encode] at e1
      exact (Option.some.inj e1).symm
  have hhead : s.head? = some '<' := by
    cases s with
    | nil => exact absurd rfl hne
    | cons c s => rw [List.cons_append] at hv; rw [(List.cons.inj hv).1]; rfl
  have hblank := readXml_append hhead hy hx
  have hlast : (s ++ u).getLast? = some '>' := by
    rw [hv, ← List.cons_append, List.getLast?_append_of_ne_nil _ (by decide)]; rfl
  rw [List.getLast?_append_of_ne_nil _ hu0] at hlast
  rw [List.all_eq_true] at hblank
  exact absurd (hblank _ (List.mem_of_getLast? hlast)) (by decide)

set_option maxRecDepth 100000 in
/-- A drawing, and devices that take all of it, all but the last byte, all but the last line, one byte less, and nothing; a
source with an error, and a standard error that takes no report. -/
example :
    let w := oneFile [c!"seiren", c!"a.erd"] c!"a.erd" (encodeUtf8 c!"erd { a { } }")
    let whole := runProgram BinHeap.queue id w
    let run (n : Nat) := runProgramOn BinHeap.queue id w ⟨0, n⟩
    let n := whole.stdout.length
    (100 < n ∧ whole.exit = .success ∧ (readXml ((decodeUtf8 whole.stdout).getD [])).isSome = true) ∧
    (run n = whole) ∧ ((run (n - 1)).exit = .success ∧ (run (n - 1)).stdout = whole.stdout.take (n - 1)) ∧
    ((run (n - 6)).exit = .success ∧ (run (n - 6)).stdout.getLast? = some 10) ∧
    ((run (n - 7)).exit = .panic ∧ (run (n - 7)).stdout.length = n - 7) ∧
    ((run 0).exit = .panic ∧ (run 0).stdout = []) ∧
    (let o := runProgramOn BinHeap.queue id (oneFile [c!"seiren", c!"a.erd"] c!"a.erd" (encodeUtf8 c!"erd {")) ⟨0, 0⟩;
      o.errors = [] ∧ o.exit = .panic) := by
  decide +kernel

end Seiren
