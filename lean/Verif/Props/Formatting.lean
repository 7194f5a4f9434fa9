import Verif.Props.Display
import Verif.Props.Reports
/-! # C87: how a source is formatted does not matter to what is written -/

namespace Seiren
open Spec

/-- Two sequences of tokens (with the numbers of errors in them) that differ only in their runs of newlines and semicolons: where
one has such a run, so has the other, but perhaps of other separators or of another length. -/
inductive Spec.SameButSeparators : List (Token × Nat) → List (Token × Nat) → Prop
  | nil : SameButSeparators [] []
  | token (x : Token × Nat) {a b : List (Token × Nat)} (h : SameButSeparators a b) : SameButSeparators (x :: a) (x :: b)
  | run {p p' : List Token} {a b : List (Token × Nat)} (hp : ∀ t ∈ p, IsSeparator t) (hp' : ∀ t ∈ p', IsSeparator t) (hne : p ≠ [])
      (hne' : p' ≠ []) (h : SameButSeparators a b) : SameButSeparators (p.map (·, 0) ++ a) (p'.map (·, 0) ++ b)

/-- Two sources that differ only in blanks, tabs, comments and separators, and in how their names are quoted. -/
def Spec.Reformatted (src src' : Str) : Prop := ∃ ls ls', Layout ls src ∧ Layout ls' src' ∧ SameButSeparators ls ls'

theorem Spec.SameButSeparators.collapse_eq {a b : List (Token × Nat)} (h : SameButSeparators a b) :
    collapse (a.map Prod.fst) = collapse (b.map Prod.fst) ∧ (a.map Prod.snd).sum = (b.map Prod.snd).sum := by
  induction h with
  | nil => exact ⟨rfl, rfl⟩
  | token x h ih =>
    refine ⟨?_, by simp [ih.2]⟩
    simpa using collapse_append [x.1] _ _ ih.1
  | @run p p' a b hp hp' hne hne' h ih =>
    have h1 : ∀ l : List Token, (l.map fun t => (t, 0)).map Prod.fst = l := by
      intro l; simp [Function.comp_def]
    have h2 : ∀ l : List Token, ((l.map fun t => (t, 0)).map Prod.snd).sum = 0 := by
      intro l; simp [Function.comp_def]
    constructor
    · simp only [List.map_append, h1]
      rw [collapse_run hp hne, collapse_run hp' hne', collapse_skip ih.1]
    · simp only [List.map_append, List.sum_append, h2, ih.2]

/-- Reformatting a source changes neither the module nor the numbers of errors. -/
theorem parse_reformatted {src src' : Str} (h : Reformatted src src') : parse src = parse src' := by
  obtain ⟨ls, ls', h1, h2, h3⟩ := h
  rw [C04_layout_result ls src h1, C04_layout_result ls' src' h2, h3.collapse_eq.2, parseTokens_collapse _ _ h3.collapse_eq.1]

theorem errors_length (src : Str) : (errorsOf src).length = (parse src).2.1.length + (parse src).2.2.length := by
  simp only [errorsOf, List.length_append, List.length_map, C69_count, (C62_one_report src).2, Nat.add_right_cancel_iff]
  unfold parse
  rcases tokenize src with ⟨_ | tokens, errs⟩ <;> rfl

/-- What `main` writes and how it ends depends on the module alone. -/
theorem finishMainM_congr (rnd sq : Rat → Rat) (w : Nat → Nat) (q : Queue) (esc : Str → Str) (name name' : Str) {src src' : Str}
    (h : (parse src).1 = (parse src').1) :
    (finishMainM rnd sq w q esc name (some src)).stdout = (finishMainM rnd sq w q esc name' (some src')).stdout ∧
    (finishMainM rnd sq w q esc name (some src)).exit = (finishMainM rnd sq w q esc name' (some src')).exit := by
  have hs : stdoutTextM rnd sq w q esc src = stdoutTextM rnd sq w q esc src' := by
    unfold stdoutTextM; rw [h]
  simp only [finishMainM, hs]
  cases stdoutTextM rnd sq w q esc src' <;> exact ⟨rfl, rfl⟩

theorem finishMainM_errors (rnd sq : Rat → Rat) (w : Nat → Nat) (q : Queue) (esc : Str → Str) (name src : Str) :
    (finishMainM rnd sq w q esc name (some src)).errors = errorsOf src := by
  simp only [finishMainM]
  cases stdoutTextM rnd sq w q esc src <;> rfl

theorem runProgramM_input {w : World} {name : Str} {input : Option (List UInt8)} (h : InputOf w name input) (rnd sq : Rat → Rat)
    (wr : Nat → Nat) (q : Queue) (esc : Str → Str) :
    runProgramM rnd sq wr q esc w = finishMainM rnd sq wr q esc name (readToString input) := by
  cases h with
  | file h => rw [runProgramM, h]; rfl
  | stdin h => rw [runProgramM, List.getElem?_eq_none (by omega)]

/-- **C87.** Blanks, tabs, comments, the choice between newlines and semicolons and their number, and the name of the file do not
matter: runs of the program on two sources that differ only in these write the same bytes, end in the same way and report equally
many errors.  This holds for the program as it runs on the machine (`roundF32`, …) and for any other arithmetic. -/
theorem C87_formatting (rnd sq : Rat → Rat) (wr : Nat → Nat) (q : Queue) (esc : Str → Str) (w w' : World) (name name' : Str)
    (bs bs' : List UInt8) (hin : InputOf w name (some bs)) (hin' : InputOf w' name' (some bs')) (src src' : Str) (hs : TextBytes src bs)
    (hs' : TextBytes src' bs') (h : Reformatted src src') :
    (runProgramM rnd sq wr q esc w).stdout = (runProgramM rnd sq wr q esc w').stdout ∧
    (runProgramM rnd sq wr q esc w).exit = (runProgramM rnd sq wr q esc w').exit ∧
    (runProgramM rnd sq wr q esc w).errors.length = (runProgramM rnd sq wr q esc w').errors.length := by
  rw [runProgramM_input hin, runProgramM_input hin', (C77_utf8.1 bs src).mpr hs, (C77_utf8.1 bs' src').mpr hs']
  have hp := parse_reformatted h
  obtain ⟨h1, h2⟩ := finishMainM_congr rnd sq wr q esc name name' (congrArg Prod.fst hp)
  refine ⟨h1, h2, ?_⟩
  rw [finishMainM_errors, finishMainM_errors, errors_length, errors_length, hp]

/-- **C87**, line ends: for a source without back quotes and carriage returns, CRLF line ends give the same output, too. -/
theorem C87_crlf (rnd sq : Rat → Rat) (wr : Nat → Nat) (q : Queue) (esc : Str → Str) (w w' : World) (name name' : Str)
    (bs bs' : List UInt8) (hin : InputOf w name (some bs)) (hin' : InputOf w' name' (some bs')) (src : Str) (hs : TextBytes src bs)
    (hs' : TextBytes (crlf src) bs') (hq : '`' ∉ src) (hr : '\r' ∉ src) :
    (runProgramM rnd sq wr q esc w).stdout = (runProgramM rnd sq wr q esc w').stdout ∧
    (runProgramM rnd sq wr q esc w).exit = (runProgramM rnd sq wr q esc w').exit ∧
    (runProgramM rnd sq wr q esc w).errors.length = (runProgramM rnd sq wr q esc w').errors.length := by
  rw [runProgramM_input hin, runProgramM_input hin', (C77_utf8.1 bs src).mpr hs, (C77_utf8.1 bs' (crlf src)).mpr hs']
  obtain ⟨hp1, hp2, hp3⟩ := C05_crlf src hq hr
  obtain ⟨h1, h2⟩ := finishMainM_congr rnd sq wr q esc name name' hp1.symm
  refine ⟨h1, h2, ?_⟩
  have := congrArg List.length hp3
  simp only [List.length_map] at this
  rw [finishMainM_errors, finishMainM_errors, errors_length, errors_length, this, hp2]

/-- Blanks, a comment, other separators, and a quoted name. -/
example : Reformatted c!"erd{a{\n}}" c!"erd { `a` { // the table\n;; }}" := by
  have n : ∀ c s, isIdentStart c = false → IsWord [c] → ∀ d ∈ (s : Str).head?, ¬ WordChar d := by
    intro c s h hw
    exact absurd hw (not_word_of h _)
  have a : Lexeme (.ident c!"a") c!"a" 0 := .word ⟨'a', [], rfl, (isIdentStart_iff _).mp (by decide), by simp⟩ (by simp [keywords])
  have k : Lexeme .erd c!"erd" 0 := .keyword (by simp [keywords])
  have o : Lexeme (.ctrl '{') ['{'] 0 := .ctrl (by simp)
  have c : Lexeme (.ctrl '}') ['}'] 0 := .ctrl (by simp)
  have s : Lexeme (.ctrl ';') [';'] 0 := .ctrl (by simp)
  have qa : Lexeme (.ident c!"a") c!"`a`" 0 :=
    .quoted (s := c!"a") (w := c!"a") (.cons (w := c!"a") (e := 0) (n := 0) (.raw _ (by decide) (by decide)) .nil)
  have nw : ∀ (d : Char) (s : Str), isIdentContinue d = false → ∀ c ∈ (d :: s).head?, ¬ WordChar c := by
    intro d s h c hc
    simp only [List.head?_cons, Option.mem_def, Option.some.injEq] at hc
    rw [← hc, ← isIdentContinue_iff, h]; simp
  have sp : Blank ' ' := Or.inl rfl
  have e0 : Layout [] [] := .nil (.blanks (by simp))
  refine ⟨[(.erd, 0), (.ctrl '{', 0), (.ident c!"a", 0), (.ctrl '{', 0), (.newline, 0), (.ctrl '}', 0), (.ctrl '}', 0)],
    [(.erd, 0), (.ctrl '{', 0), (.ident c!"a", 0), (.ctrl '{', 0), (.newline, 0), (.ctrl ';', 0), (.ctrl ';', 0), (.ctrl '}', 0),
      (.ctrl '}', 0)], ?_, ?_, ?_⟩
  · refine layout_tok (w := c!"erd") (src := c!"{a{\n}}") ?_ k fun _ => nw _ _ (by decide)
    refine layout_tok (w := c!"{") (src := c!"a{\n}}") ?_ o (n _ _ (by decide))
    refine layout_tok (w := c!"a") (src := c!"{\n}}") ?_ a fun _ => nw _ _ (by decide)
    refine layout_tok (w := c!"{") (src := c!"\n}}") ?_ o (n _ _ (by decide))
    refine layout_tok (w := c!"\n") (src := c!"}}") ?_ .newline (n _ _ (by decide))
    refine layout_tok (w := c!"}") (src := c!"}") ?_ c (n _ _ (by decide))
    exact layout_tok (w := c!"}") (src := []) e0 c (n _ _ (by decide))
  · refine layout_tok (w := c!"erd") (src := c!" { `a` { // the table\n;; }}") ?_ k fun _ => nw _ _ (by decide)
    refine layout_blank ?_ sp
    refine layout_tok (w := c!"{") (src := c!" `a` { // the table\n;; }}") ?_ o (n _ _ (by decide))
    refine layout_blank ?_ sp
    refine layout_tok (w := c!"`a`") (src := c!" { // the table\n;; }}") ?_ qa fun _ => nw _ _ (by decide)
    refine layout_blank ?_ sp
    refine layout_tok (w := c!"{") (src := c!" // the table\n;; }}") ?_ o (n _ _ (by decide))
    refine layout_blank ?_ sp
    refine layout_comment (x := c!" the table") (src := c!";; }}") ?_ (by simp)
    refine layout_tok (w := c!"\n") (src := c!";; }}") ?_ .newline (n _ _ (by decide))
    refine layout_tok (w := c!";") (src := c!"; }}") ?_ s (n _ _ (by decide))
    refine layout_tok (w := c!";") (src := c!" }}") ?_ s (n _ _ (by decide))
    refine layout_blank ?_ sp
    refine layout_tok (w := c!"}") (src := c!"}") ?_ c (n _ _ (by decide))
    exact layout_tok (w := c!"}") (src := []) e0 c (n _ _ (by decide))
  · refine .token _ (.token _ (.token _ (.token _ ?_)))
    exact .run (p := [.newline]) (p' := [.newline, .ctrl ';', .ctrl ';']) (by simp [IsSeparator]) (by simp [IsSeparator]) (by simp)
      (by simp) (.token _ (.token _ .nil))

end Seiren
