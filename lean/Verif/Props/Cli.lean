import Verif.Props.RoundTrip
import Verif.Props.Drawing
/-! # C53, C54: the program; C56: comments and garbage -/

namespace Seiren
open Spec

/-- The source, read by the specification of the tokenizer and the grammar, contains the module. -/
def Spec.Contains (src : Str) (m : Module) : Prop :=
  ∃ ts errs w r, Scan 0 src ts errs ∧ ts.map Prod.fst = w ++ r ∧ ModuleG implemented m w

theorem parse_contains (src : Str) (m : Module) : (parse src).1 = some m ↔ Contains src m := by
  obtain ⟨ts, errs, ht, hs⟩ := tokenize_scan src
  have hp : (parse src).1 = (parseTokens (ts.map Prod.fst)).1 := by unfold parse; rw [ht]
  rw [hp, C09_grammar_exact]
  constructor
  · rintro ⟨w, r, e, hm⟩; exact ⟨ts, errs, w, r, hs, e, hm⟩
  · rintro ⟨ts', errs', w, r, hs', e, hm⟩
    have := (tokenize_exact _ _ _).mpr hs'
    rw [ht] at this
    simp only [Prod.mk.injEq, Option.some.injEq] at this
    obtain ⟨rfl, rfl⟩ := this
    exact ⟨w, r, e, hm⟩

theorem runMain_drawing (q : Queue) (src : Str) : (runMain q src).drawing = (parse src).1.map (drawModule q) := rfl

/-- **C54.** An SVG is written exactly if the source contains a module that can be drawn, and it is its drawing. -/
theorem C54_output_exact (q : Queue) (src : Str) (svg : Element) :
    (runMain q src).drawing = some (.ok svg) ↔ ∃ m, Contains src m ∧ drawModule q m = .ok svg := by
  rw [runMain_drawing, Option.map_eq_some_iff]
  simp only [parse_contains]

/-- **C54**, reports: one for each tokenizer error, and one more exactly if the source contains no module. -/
theorem C54_reports_exact (q : Queue) (src : Str) :
    ∃ ts errs, Scan 0 src ts errs ∧ ((∃ m, Contains src m) → (runMain q src).reports = errs.length) ∧
      ((¬ ∃ m, Contains src m) → (runMain q src).reports = errs.length + 1) := by
  obtain ⟨ts, errs, ht, hs⟩ := tokenize_scan src
  obtain ⟨h12, ts', errs', ht', he, -⟩ := C12_module_or_one_error src
  rw [ht] at ht'
  simp only [Prod.mk.injEq, Option.some.injEq] at ht'
  obtain ⟨rfl, rfl⟩ := ht'
  have hr : (runMain q src).reports = (parse src).2.1.length + (parse src).2.2.length := rfl
  refine ⟨ts, errs, hs, ?_, ?_⟩
  · rintro ⟨m, hm⟩
    rw [hr, he]
    rcases h12 with ⟨-, h⟩ | ⟨h, -⟩
    · rw [h]; rfl
    · rw [(parse_contains _ _).mpr hm] at h; cases h
  · intro hn
    rw [hr, he]
    rcases h12 with ⟨⟨m, h⟩, -⟩ | ⟨-, h⟩
    · exact absurd ⟨m, (parse_contains _ _).mp h⟩ hn
    · rw [h]; rfl

/-- **C54**, the output depends on the tokens only: different layouts of the same lexemes give the same output and reports. -/
theorem C54_layout_irrelevant (q : Queue) (ls : List (Token × Nat)) (src src' : Str) (h : Layout ls src) (h' : Layout ls src') :
    runMain q src = runMain q src' := by
  unfold runMain
  rw [C04_layout_irrelevant ls src src' h h']

/-- A source without relations is always drawn (up to the height bound of `C40`). -/
theorem C54_drawn_without_relations {q : Queue} {QI : List Entry → Prop} (hq : q.Lawful QI) (src : Str) (m : Module) (h : Contains src m)
    (hr : ∀ r, ModuleEntry.relation r ∉ m.entries) (hsize : (placeNodes m.intoMir).2.size.height ≤ 1000000000) :
    ∃ svg, (runMain q src).drawing = some (.ok svg) := by
  have hc : connections [] m.entries = [] := by
    have key : ∀ (es : List ModuleEntry) pre, (∀ r, ModuleEntry.relation r ∉ es) → connections pre es = [] := by
      intro es
      induction es with
      | nil => intros; rfl
      | cons e es ih =>
        intro pre hes
        cases e with
        | definition d =>
          rw [connections]
          exact ih _ fun r hr => hes r (by simp [hr])
        | relation r => exact absurd (by simp) (hes r)
    exact key _ _ hr
  obtain ⟨svg, hsvg⟩ := C40_rendering_never_panics_partial hq m hsize (by rw [hc]; simp) (by
    intro doc' g' hd e he
    obtain ⟨doc2, g2, h1, -, -, -, hmap⟩ := drawn_connections hq m hsize
    rw [hd] at h1
    simp only [Except.ok.injEq, Prod.mk.injEq] at h1
    obtain ⟨rfl, rfl⟩ := h1
    rw [hc] at hmap
    have : doc'.edges = [] := by simpa using hmap
    rw [this] at he; cases he)
  exact ⟨svg, (C54_output_exact q src svg).mpr ⟨m, h, hsvg⟩⟩

/-! ## C53 -/

/-- **C53 is false as stated**: a source without a module is reported, nothing is drawn, and the program exits with success. -/
theorem C53_refuted (q : Queue) (src : Str) (h : ¬ ∃ m, Contains src m) :
    1 ≤ (runMain q src).reports ∧ (runMain q src).drawing = none ∧ (runMain q src).exitSuccess = true := by
  have hn : (parse src).1 = none := by
    cases hp : (parse src).1 with
    | none => rfl
    | some m => exact absurd ⟨m, (parse_contains _ _).mp hp⟩ h
  have hd : (runMain q src).drawing = none := by rw [runMain_drawing, hn]; rfl
  obtain ⟨ts, errs, -, -, hr⟩ := C54_reports_exact q src
  refine ⟨by rw [hr h]; omega, hd, ?_⟩
  unfold RunResult.exitSuccess
  rw [hd]

/-- Such a source. -/
example : ¬ ∃ m, Contains c!"erd {" m := by
  rintro ⟨m, hm⟩
  have := (parse_contains _ _).mpr hm
  have h2 : (parse c!"erd {").1 = none := by decide +kernel
  rw [h2] at this; cases this

/-- **C53**, as far as it holds: the exit status tells exactly whether a module was found that could not be drawn.
Missing for the full claim: errors in the source, which do not influence it (`C53_refuted`). -/
theorem C53_exit_status_partial (q : Queue) (src : Str) :
    (runMain q src).exitSuccess = false ↔ ∃ m e, Contains src m ∧ drawModule q m = .error e := by
  unfold RunResult.exitSuccess
  rw [runMain_drawing]
  cases hp : (parse src).1 with
  | none =>
    simp only [Option.map_none, Bool.true_eq_false, false_iff]
    rintro ⟨m, e, hm, -⟩
    rw [(parse_contains _ _).mpr hm] at hp; cases hp
  | some m =>
    simp only [Option.map_some]
    have huniq : ∀ m', Contains src m' → m' = m := by
      intro m' hm'
      rw [(parse_contains _ _).mpr hm'] at hp
      exact Option.some.inj hp
    cases hd : drawModule q m with
    | ok el =>
      simp only [Bool.true_eq_false, false_iff]
      rintro ⟨m', e, hm', he⟩
      rw [huniq m' hm', hd] at he; cases he
    | error e =>
      simp only [true_iff]
      exact ⟨m, e, (parse_contains _ _).mp hp, hd⟩

/-! ## C56 -/

/-- Where the source starts does not matter, except for the positions in the result. -/
theorem scan_shift {pos : Nat} {cs : Str} {ts : List (Token × Span)} {errs : List LexError} (h : Scan pos cs ts errs) (pos' : Nat) :
    ∃ ts' errs', Scan pos' cs ts' errs' ∧ ts'.map Prod.fst = ts.map Prod.fst ∧ errs'.map isEscapeError = errs.map isEscapeError := by
  induction h generalizing pos' with
  | stop hg ht hu => exact ⟨[], [], .stop hg ht hu, rfl, rfl⟩
  | token hg hw h ih =>
    rename_i pos g w r t e ts errs
    obtain ⟨ts', errs', h1, h2, h3⟩ := ih (pos' + g.length + w.length)
    exact ⟨_, _, .token hg hw h1, by simp [h2], by simp [h3]⟩
  | skip hg ht hx hu hw h ih =>
    rename_i pos g x w r t e ts errs
    obtain ⟨ts', errs', h1, h2, h3⟩ := ih (pos' + g.length + x.length + w.length)
    exact ⟨_, _, .skip hg ht hx hu hw h1, by simp [h2], by simp [h3, isEscapeError]⟩

theorem gap_follow {g r r' : Str} (h : Gap g r) (hh : r.head? = r'.head?) : Gap g r' := by
  cases h with
  | blanks h => exact .blanks h
  | comment h hx hr => exact .comment h hx (by rw [← hh]; exact hr)

theorem laidOut_head {ts : List Token} {v r : Str} (h : LaidOut ts v r) (hr : r.head? ≠ some '-') : (v ++ r).head? ≠ some '-' := by
  cases h with
  | nil => exact hr
  | cons hg hw h =>
    have := gap_head hg (lexeme_head hw.1 _)
    simpa using this

theorem laidOut_follow {ts : List Token} {v r : Str} (h : LaidOut ts v r) {r' : Str} (hh : r.head? = r'.head?) (hd : r.head? ≠ some '-') :
    LaidOut ts v r' := by
  induction h with
  | nil => exact .nil
  | cons hg hw h ih =>
    rename_i t ts g w v r
    refine .cons (gap_follow hg ?_) ?_ (ih hh hd)
    · cases w with
      | nil => exact absurd rfl (lexeme_ne hw.1)
      | cons c w => rfl
    · refine ⟨hw.1, fun hw' => ?_⟩
      obtain ⟨h1, h2⟩ := hw.2 hw'
      cases v with
      | nil =>
        rw [List.nil_append] at h1 h2 ⊢
        refine ⟨by rw [← hh]; exact h1, ?_⟩
        rintro ⟨-, z, hz⟩
        rw [hh, ← hz] at hd
        exact hd rfl
      | cons c v =>
        refine ⟨h1, ?_⟩
        rintro ⟨-, z, hz⟩
        have := laidOut_head h hd
        simp only [List.cons_append, List.nil_append, List.cons.injEq] at hz
        rw [← hz.1] at this
        exact this rfl

theorem laidOut_prefix_scan {ts : List Token} {v r : Str} (h : LaidOut ts v r) {pos : Nat} {us : List (Token × Span)} {errs : List LexError}
    (hs : Scan (pos + v.length) r us errs) : ∃ xs, Scan pos (v ++ r) (xs ++ us) errs ∧ xs.map Prod.fst = ts := by
  induction h generalizing pos with
  | nil => exact ⟨[], by simpa using hs, rfl⟩
  | cons hg hw h ih =>
    rename_i t ts g w v r
    obtain ⟨xs, h1, h2⟩ := ih (pos := pos + g.length + w.length) (by
      have e : pos + g.length + w.length + v.length = pos + (g ++ (w ++ v)).length := by simp; omega
      rw [e]; exact hs)
    refine ⟨(t, ⟨pos + g.length, pos + g.length + w.length⟩) :: xs, ?_, by simp [h2]⟩
    have := Scan.token (pos := pos) hg hw h1
    simpa using this

/-- Before a line end, or the end of the source, nothing else than the gap changes when a comment is added to it. -/
theorem scan_comment {g x b : Str} (hg : ∀ c ∈ g, Blank c) (hx : '\n' ∉ x) (hb : ∀ c ∈ b.head?, c = '\n') {pos : Nat} {ts : List (Token × Span)}
    {errs : List LexError} (h : Scan pos b ts errs) (pos' : Nat) :
    ∃ ts' errs', Scan pos' (g ++ ('/' :: '/' :: x) ++ b) ts' errs' ∧ ts'.map Prod.fst = ts.map Prod.fst ∧ errs'.map isEscapeError = errs.map isEscapeError := by
  have gap0 : ∀ {g' r : Str}, Gap g' r → (∀ c ∈ (g' ++ r).head?, c = '\n') → g' = [] := by
    intro g' r hg' hh
    cases g' with
    | nil => rfl
    | cons c g' =>
      have h1 := hh c (by simp)
      exact absurd (h1 ▸ List.mem_cons_self) (gap_no_newline hg')
  cases h with
  | stop hg' ht hu =>
    rename_i g' r
    obtain rfl := gap0 hg' hb
    rw [List.nil_append] at hb ⊢
    exact ⟨[], [], .stop (.comment hg hx hb) ht hu, rfl, rfl⟩
  | token hg' hw h =>
    rename_i g' w r t e ts errs
    obtain rfl := gap0 hg' hb
    rw [List.nil_append] at hb ⊢
    obtain ⟨ts', errs', h1, h2, h3⟩ := scan_shift h (pos' + (g ++ ('/' :: '/' :: x)).length + w.length)
    exact ⟨_, _, .token (.comment hg hx hb) hw h1, by simp [h2], by simp [h3]⟩
  | skip hg' ht hx' hu hw h =>
    rename_i g' x' w r t e ts errs
    obtain rfl := gap0 hg' hb
    rw [List.nil_append] at hb ⊢
    obtain ⟨ts', errs', h1, h2, h3⟩ := scan_shift h (pos' + (g ++ ('/' :: '/' :: x)).length + x'.length + w.length)
    exact ⟨_, _, .skip (.comment hg hx hb) ht hx' hu hw h1, by simp [h2], by simp [h3, isEscapeError]⟩

/-- **C56**, as far as it holds: if everything before a comment is readable, the text of the comment does not matter; it could as well be
missing.  Missing for the full claim: comments after unreadable text on the same line (`C56_refuted`). -/
theorem C56_comment_text_partial (ts : List Token) (v g x b : Str) (h : LaidOut ts v (g ++ ('/' :: '/' :: x) ++ b)) (hg : ∀ c ∈ g, Blank c)
    (hx : '\n' ∉ x) (hb : ∀ c ∈ b.head?, c = '\n') :
    ∃ errs errs', ∀ y : Str, '\n' ∉ y → ∃ lexErrs, lexErrs.map isEscapeError = errs ∧
      parse (v ++ (g ++ ('/' :: '/' :: y) ++ b)) = ((parse (v ++ (g ++ ('/' :: '/' :: x) ++ b))).1, lexErrs, errs') := by
  obtain ⟨us, es, hs⟩ := scan_total 0 b
  have key : ∀ y : Str, '\n' ∉ y → ∃ xs lexErrs, Scan 0 (v ++ (g ++ ('/' :: '/' :: y) ++ b)) xs lexErrs ∧ xs.map Prod.fst = ts ++ us.map Prod.fst ∧
      lexErrs.map isEscapeError = es.map isEscapeError := by
    intro y hy
    obtain ⟨us', es', h1, h2, h3⟩ := scan_comment (g := g) hg hy hb hs (0 + v.length)
    have hd : (g ++ ('/' :: '/' :: x) ++ b).head? ≠ some '-' := by
      cases g with
      | nil => simp
      | cons c g => rcases hg c (by simp) with rfl | rfl <;> simp
    have hh : (g ++ ('/' :: '/' :: x) ++ b).head? = (g ++ ('/' :: '/' :: y) ++ b).head? := by cases g <;> simp
    obtain ⟨xs, h4, h5⟩ := laidOut_prefix_scan (laidOut_follow h hh hd) h1
    exact ⟨_, _, h4, by simp [h5, h2], h3⟩
  refine ⟨es.map isEscapeError, (parseTokens (ts ++ us.map Prod.fst)).2, fun y hy => ?_⟩
  obtain ⟨xs, lexErrs, h1, h2, h3⟩ := key y hy
  obtain ⟨xs', lexErrs', h1', h2', h3'⟩ := key x hx
  refine ⟨lexErrs, h3, ?_⟩
  unfold parse
  rw [(tokenize_exact _ _ _).mpr h1, (tokenize_exact _ _ _).mpr h1']
  simp only [h2, h2']

/-- A comment behind `erd {`, with readable text before and anything behind it. -/
example (b : Str) : LaidOut [.erd, .ctrl '{'] c!"erd {" (c!" " ++ ('/' :: '/' :: c!" a {") ++ '\n' :: b) := by
  refine LaidOut.cons (g := []) (w := c!"erd") (v := c!" {") (.blanks (by simp)) ⟨.keyword (by simp [keywords]), fun _ => ⟨?_, by simp⟩⟩ ?_
  · exact stops_cons _ _ (by decide)
  · exact LaidOut.cons (g := c!" ") (w := c!"{") (v := []) (.blanks (by simp [Blank])) ⟨.ctrl (by simp), fun h => absurd h (not_word_of (by decide) _)⟩ .nil

/-- **C56 is false as stated**: after a character that cannot be read, the text of a comment on the same line is read as tokens; here it even
becomes a table. -/
theorem C56_refuted : parse c!"erd { $ // a { }\n}" = (some ⟨none, [.definition ⟨c!"a", []⟩]⟩, [.unexpected 6], []) ∧
    parse c!"erd { $ //\n}" = (some ⟨none, []⟩, [.unexpected 6], []) := by decide +kernel

end Seiren
