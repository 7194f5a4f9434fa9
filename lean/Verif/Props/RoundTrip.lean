import Verif.Props.Lexer
/-! # C01, C02: printing and parsing -/

namespace Seiren
open Spec

/-- The names that occur in one end of a relation. -/
def Spec.pathNames : EntityPath → List Str
  | .entity n => [n]
  | .field e f => [e, f]

/-- The names that occur in an entry. -/
def Spec.entryNames : ModuleEntry → List Str
  | .definition d => d.name :: d.fields.map (·.name)
  | .relation r => pathNames r.startPath ++ pathNames r.endPath

/-- The names that occur in a module. -/
def Spec.moduleNames (m : Module) : List Str := m.name.toList ++ m.entries.flatMap entryNames

/-- A word that is no keyword. -/
def Spec.PlainName (s : Str) : Prop := IsWord s ∧ ∀ t, (s, t) ∉ keywords

/-! ## A printer with a parameter: how names are written -/

section
variable (q : Str → Str)

def printKey : Option EntityFieldKey → Str
  | none => []
  | some k => ' ' :: k.toKeyword

def printField (f : EntityField) : Str := q f.name ++ ' ' :: (f.fieldType.display ++ printKey f.fieldKey)

def printFields : List EntityField → Str
  | [] => []
  | f :: fs => ' ' :: (printField q f ++ fs.flatMap (fun g => ';' :: ' ' :: printField q g) ++ [' '])

def printEnd : EntityPath → Str
  | .entity n => q n ++ ['.']
  | .field e f => q e ++ '.' :: q f

def printEntry : ModuleEntry → Str
  | .definition d => q d.name ++ ' ' :: '{' :: (printFields q d.fields ++ ['}'])
  | .relation r => printEnd q r.startPath ++ ' ' :: (c!"o--o" ++ ' ' :: printEnd q r.endPath)

def printEntries (es : List ModuleEntry) : Str := es.flatMap fun e => ' ' :: ' ' :: ' ' :: ' ' :: (printEntry q e ++ ['\n'])

def printName : Option Str → Str
  | none => []
  | some n => q n ++ [' ']

def printModule (m : Module) : Str := c!"erd" ++ ' ' :: (printName q m.name ++ '{' :: '\n' :: (printEntries q m.entries ++ ['}']))

end

/-! ## The tokens that are printed -/

def joinTokens {α : Type} (s : Token) (f : α → List Token) : List α → List Token
  | [] => []
  | a :: as => f a ++ as.flatMap fun b => s :: f b

def fieldTokens (f : EntityField) : List Token := .ident f.name :: typeToken f.fieldType :: keyTokens f.fieldKey

def endTokens : EntityPath → List Token
  | .entity n => [.ident n, .ctrl '.']
  | .field e f => [.ident e, .ctrl '.', .ident f]

def entryTokens : ModuleEntry → List Token
  | .definition d => .ident d.name :: .ctrl '{' :: (joinTokens (.ctrl ';') fieldTokens d.fields ++ [.ctrl '}'])
  | .relation r => endTokens r.startPath ++ .edge :: endTokens r.endPath

def moduleTokens (m : Module) : List Token :=
  .erd :: ((m.name.map Token.ident).toList ++ .ctrl '{' :: .newline :: (m.entries.flatMap (fun e => entryTokens e ++ [.newline]) ++ [.ctrl '}']))

theorem items_join {α : Type} {G : α → List Token → Prop} {f : α → List Token} {s : Token} (hs : IsSeparator s) (as : List α) (h : ∀ a ∈ as, G a (f a)) :
    Items implemented G as (joinTokens s f as) := by
  cases as with
  | nil => exact .empty
  | cons a as =>
    refine .items a (f a) as _ (h a (by simp)) ?_
    have h' : ∀ b ∈ as, G b (f b) := fun b hb => h b (by simp [hb])
    clear h
    induction as with
    | nil => exact .done
    | cons b as ih => exact .more s [] b (f b) as _ hs (by simp) (h' b (by simp)) (ih fun c hc => h' c (by simp [hc]))

theorem dottedEnd_tokens (p : EntityPath) : DottedEnd p (endTokens p) := by
  cases p with
  | entity n => exact .entity n
  | field e f => exact .field e f

theorem entryG_tokens (e : ModuleEntry) : EntryG implemented e (entryTokens e) := by
  cases e with
  | definition d =>
    exact .definition ⟨[], [], _, [], by simp, items_join (Or.inr rfl) d.fields fun f _ => rfl, fun _ => Or.inl trivial, rfl⟩
  | relation r => exact .relation ⟨_, [], [], _, dottedEnd_tokens _, dottedEnd_tokens _, by simp, rfl⟩

theorem flatMap_join {α : Type} (s : Token) (f : α → List Token) (a : α) (as : List α) :
    ((a :: as).flatMap fun e => f e ++ [s]) = joinTokens s f (a :: as) ++ [s] := by
  simp only [joinTokens]
  induction as generalizing a with
  | nil => simp
  | cons b as ih =>
    rw [List.flatMap_cons, ih b]
    simp

theorem moduleG_tokens (m : Module) : ModuleG implemented m (moduleTokens m) := by
  have hn : NameG implemented m.name (m.name.map Token.ident).toList := by
    cases m.name with
    | none => exact .none
    | some n => exact .some n [] (by simp)
  cases he : m.entries with
  | nil =>
    refine ⟨[], [], _, [.newline], [], [], [], ?_, hn, ?_, ?_⟩
    · simp [implemented, IsSeparator]
    · rw [he]; exact .empty
    · simp [moduleTokens, he]
  | cons a as =>
    refine ⟨[], [], _, [.newline], joinTokens .newline entryTokens (a :: as), [.newline], [], ?_, hn, ?_, ?_⟩
    · simp [implemented, IsSeparator]
    · rw [he]; exact items_join (Or.inl rfl) _ fun e _ => entryG_tokens e
    · rw [moduleTokens, he, flatMap_join]
      simp

/-! ## The printed text is laid out as these tokens -/

/-- Tokens without errors. -/
def clean (ts : List Token) : List (Token × Nat) := ts.map fun t => (t, 0)

def Stops (r : Str) : Prop := ∀ c ∈ r.head?, ¬ WordChar c

theorem stops_cons (c : Char) (r : Str) (h : isIdentContinue c = false) : Stops (c :: r) := by
  intro d hd
  simp only [List.head?_cons, Option.mem_def, Option.some.injEq] at hd
  rw [← hd, ← isIdentContinue_iff, h]; simp

theorem lay_tok {ts : List Token} {src w : Str} {t : Token} (h : Layout (clean ts) src) (hl : Lexeme t w 0) (hs : Stops src) :
    Layout (clean (t :: ts)) (w ++ src) := layout_tok h hl fun _ => hs

theorem lay_sp {ts : List Token} {src : Str} (h : Layout (clean ts) src) : Layout (clean ts) (' ' :: src) := layout_blank h (Or.inl rfl)

theorem lay_ctrl {ts : List Token} {src : Str} (c : Char) (hc : c ∈ c!"{};.") (h : Layout (clean ts) src) :
    Layout (clean (.ctrl c :: ts)) (c :: src) := by
  refine layout_tok (w := [c]) h (.ctrl hc) fun hw => absurd hw (not_word_of ?_ _)
  simp only [List.mem_cons, List.not_mem_nil, or_false] at hc
  rcases hc with rfl | rfl | rfl | rfl <;> decide

theorem lay_newline {ts : List Token} {src : Str} (h : Layout (clean ts) src) : Layout (clean (.newline :: ts)) ('\n' :: src) :=
  layout_tok (w := c!"\n") h .newline fun hw => absurd hw (not_word_of (by decide) _)

section
variable {q : Str → Str}

theorem lay_key {ts : List Token} {src : Str} (k : Option EntityFieldKey) (h : Layout (clean ts) src) (hs : Stops src) :
    Layout (clean (keyTokens k ++ ts)) (printKey k ++ src) := by
  rcases k with _ | ⟨⟨⟩⟩
  · exact h
  · exact lay_sp (lay_tok (w := c!"PK") h (.keyword (by simp [keywords])) hs)
  · exact lay_sp (lay_tok (w := c!"FK") h (.keyword (by simp [keywords])) hs)

theorem stops_key (k : Option EntityFieldKey) {src : Str} (hs : Stops src) : Stops (printKey k ++ src) := by
  rcases k with _ | ⟨⟨⟩⟩
  · exact hs
  · exact stops_cons _ _ (by decide)
  · exact stops_cons _ _ (by decide)

theorem lay_field {ts : List Token} {src : Str} (f : EntityField) (hq : Lexeme (.ident f.name) (q f.name) 0) (h : Layout (clean ts) src) (hs : Stops src) :
    Layout (clean (fieldTokens f ++ ts)) (printField q f ++ src) := by
  have e : printField q f ++ src = q f.name ++ (' ' :: (f.fieldType.display ++ (printKey f.fieldKey ++ src))) := by simp [printField]
  rw [e]
  refine lay_tok (lay_sp ?_) hq (stops_cons _ _ (by decide))
  refine lay_tok (lay_key _ h hs) ?_ (stops_key _ hs)
  cases f.fieldType <;> exact .keyword (by simp [keywords, EntityFieldType.display, typeToken])

theorem lay_fields {ts : List Token} {src : Str} (fs : List EntityField) (hq : ∀ f ∈ fs, Lexeme (.ident f.name) (q f.name) 0) (h : Layout (clean ts) src) :
    Layout (clean (joinTokens (.ctrl ';') fieldTokens fs ++ ts)) (printFields q fs ++ src) := by
  cases fs with
  | nil => exact h
  | cons f fs =>
    have key : ∀ gs : List EntityField, (∀ g ∈ gs, Lexeme (.ident g.name) (q g.name) 0) →
        Layout (clean ((gs.flatMap fun b => .ctrl ';' :: fieldTokens b) ++ ts)) ((gs.flatMap fun g => ';' :: ' ' :: printField q g) ++ ' ' :: src) ∧
        Stops ((gs.flatMap fun g => ';' :: ' ' :: printField q g) ++ ' ' :: src) := by
      intro gs hgs
      induction gs with
      | nil => exact ⟨lay_sp h, stops_cons _ _ (by decide)⟩
      | cons g gs ih =>
        obtain ⟨h1, h2⟩ := ih fun g hg => hgs g (by simp [hg])
        constructor
        · have := lay_ctrl ';' (by simp) (lay_sp (lay_field g (hgs g (by simp)) h1 h2))
          simpa using this
        · exact stops_cons _ _ (by decide)
    obtain ⟨h1, h2⟩ := key fs fun g hg => hq g (by simp [hg])
    have := lay_sp (lay_field f (hq f (by simp)) h1 h2)
    simpa [joinTokens, printFields] using this

theorem lay_end {ts : List Token} {src : Str} (p : EntityPath) (hq : ∀ s ∈ pathNames p, Lexeme (.ident s) (q s) 0) (h : Layout (clean ts) src) (hs : Stops src) :
    Layout (clean (endTokens p ++ ts)) (printEnd q p ++ src) := by
  cases p with
  | entity n =>
    have := lay_tok (lay_ctrl '.' (by simp) h) (hq n (by simp [pathNames])) (stops_cons _ _ (by decide))
    simpa [printEnd, endTokens] using this
  | field e f =>
    have := lay_tok (lay_ctrl '.' (by simp) (lay_tok h (hq f (by simp [pathNames])) hs)) (hq e (by simp [pathNames])) (stops_cons _ _ (by decide))
    simpa [printEnd, endTokens] using this

theorem lay_entry {ts : List Token} {src : Str} (x : ModuleEntry) (hq : ∀ s ∈ entryNames x, Lexeme (.ident s) (q s) 0) (h : Layout (clean ts) src) (hs : Stops src) :
    Layout (clean (entryTokens x ++ ts)) (printEntry q x ++ src) := by
  cases x with
  | definition d =>
    have := lay_tok (lay_sp (lay_ctrl '{' (by simp) (lay_fields d.fields (fun f hf => hq f.name (by
      simp only [entryNames, List.mem_cons, List.mem_map]; exact Or.inr ⟨f, hf, rfl⟩)) (lay_ctrl '}' (by simp) h)))) (hq d.name (by simp [entryNames])) (stops_cons _ _ (by decide))
    simpa [printEntry, entryTokens] using this
  | relation r =>
    have h1 := lay_sp (lay_end r.endPath (fun s hs => hq s (by simp [entryNames, hs])) h hs)
    have h2 := lay_sp (lay_tok (w := c!"o--o") h1 .edge (stops_cons _ _ (by decide)))
    have h3 := lay_end r.startPath (fun s hs => hq s (by simp [entryNames, hs])) h2 (stops_cons _ _ (by decide))
    simpa [printEntry, entryTokens] using h3

theorem lay_entries {ts : List Token} {src : Str} (es : List ModuleEntry) (hq : ∀ x ∈ es, ∀ s ∈ entryNames x, Lexeme (.ident s) (q s) 0) (h : Layout (clean ts) src) :
    Layout (clean ((es.flatMap fun e => entryTokens e ++ [.newline]) ++ ts)) (printEntries q es ++ src) := by
  induction es with
  | nil => exact h
  | cons e es ih =>
    have h1 := ih fun x hx => hq x (by simp [hx])
    have h2 := lay_sp (lay_sp (lay_sp (lay_sp (lay_entry e (hq e (by simp)) (lay_newline h1) (stops_cons _ _ (by decide))))))
    simpa [printEntries] using h2

theorem lay_module (m : Module) (hq : ∀ s ∈ moduleNames m, Lexeme (.ident s) (q s) 0) : Layout (clean (moduleTokens m)) (printModule q m) := by
  have h0 : Layout (clean []) [] := .nil (.blanks (by simp))
  have h1 := lay_entries m.entries (fun x hx s hs => hq s (by
    simp only [moduleNames, List.mem_append, List.mem_flatMap]; exact Or.inr ⟨x, hx, hs⟩)) (lay_ctrl '}' (by simp) h0)
  have h2 := lay_ctrl '{' (by simp) (lay_newline h1)
  have h3 : Layout (clean ((m.name.map Token.ident).toList ++ .ctrl '{' :: .newline :: (m.entries.flatMap (fun e => entryTokens e ++ [.newline]) ++ [.ctrl '}'])))
      (printName q m.name ++ '{' :: '\n' :: (printEntries q m.entries ++ ['}'])) := by
    cases hn : m.name with
    | none => exact h2
    | some n =>
      have := lay_tok (lay_sp h2) (hq n (by simp [moduleNames, hn])) (stops_cons _ _ (by decide))
      simpa [printName] using this
  exact lay_tok (w := c!"erd") (lay_sp h3) (.keyword (by simp [keywords])) (stops_cons _ _ (by decide))

theorem sum_clean (ts : List Token) : ((clean ts).map Prod.snd).sum = 0 := by
  induction ts with
  | nil => rfl
  | cons t ts ih => simpa [clean] using ih

theorem parse_print (m : Module) (hq : ∀ s ∈ moduleNames m, Lexeme (.ident s) (q s) 0) : parse (printModule q m) = (some m, [], []) := by
  rw [C04_layout_result _ _ (lay_module m hq), sum_clean]
  have e : (clean (moduleTokens m)).map Prod.fst = moduleTokens m := by simp [clean, Function.comp_def]
  have := C13_refuted m (moduleTokens m) [] (moduleG_tokens m)
  rw [List.append_nil] at this
  rw [e, this]
  rfl

end

/-! ## C01 -/

theorem displayFields_eq (f : EntityField) (fs : List EntityField) :
    displayFields (f :: fs) = f.display ++ fs.flatMap fun g => ';' :: ' ' :: g.display := by
  induction fs generalizing f with
  | nil => simp [displayFields]
  | cons g fs ih =>
    rw [displayFields, ih g]
    · simp
    · simp

theorem field_display (f : EntityField) : f.display = printField id f := by
  cases h : f.fieldKey <;> simp [EntityField.display, printField, printKey, h]

theorem fields_display (d : EntityDefinition) : d.display = printEntry id (.definition d) := by
  obtain ⟨n, fs⟩ := d
  cases fs with
  | nil => simp [EntityDefinition.display, printEntry, printFields]
  | cons f fs => simp [EntityDefinition.display, printEntry, printFields, displayFields_eq, field_display]

theorem entry_display (x : ModuleEntry) (h : ∀ r, x = .relation r → (∃ t f, r.startPath = .field t f) ∧ ∃ t f, r.endPath = .field t f) :
    x.display = printEntry id x := by
  cases x with
  | definition d => exact fields_display d
  | relation r =>
    obtain ⟨⟨t, f, h1⟩, t', f', h2⟩ := h r rfl
    simp [ModuleEntry.display, EntityRelation.display, printEntry, h1, h2, EntityPath.display, printEnd]

theorem module_display (m : Module) (h : FieldEnds m) : m.display = printModule id m := by
  have e : ∀ es : List ModuleEntry, (∀ r, ModuleEntry.relation r ∈ es → (∃ t f, r.startPath = .field t f) ∧ ∃ t f, r.endPath = .field t f) →
      displayEntries es = printEntries id es := by
    intro es hes
    induction es with
    | nil => rfl
    | cons x es ih =>
      rw [displayEntries, ih fun r hr => hes r (by simp [hr]), entry_display x fun r hr => hes r (by simp [hr])]
      simp [printEntries]
  rw [Module.display, e m.entries h]
  cases hn : m.name <;> simp [printModule, printName, hn]

/-- **C01.** Printing then parsing gives the module back, if its names are plain and its relation ends name fields. -/
theorem C01_print_parse (m : Module) (hn : ∀ s ∈ moduleNames m, PlainName s) (hf : FieldEnds m) : parse m.display = (some m, [], []) := by
  rw [module_display m hf]
  exact parse_print m fun s hs => .word (hn s hs).1 (hn s hs).2

/-- A module with an entity with and one without fields and a relation; one of its names is `o`. -/
def printedExample : Module :=
  ⟨some c!"blog", [.definition ⟨c!"o", [⟨c!"id", .uuid, some .primaryKey⟩, ⟨c!"n_2", .int, none⟩]⟩, .definition ⟨c!"b", []⟩,
    .relation ⟨.field c!"o" c!"n_2", .field c!"o" c!"o"⟩]⟩

example : printedExample.display = c!"erd blog {\n    o { id uuid PK; n_2 int }\n    b {}\n    o.n_2 o--o o.o\n}" := by decide +kernel

example : (∀ s ∈ moduleNames printedExample, PlainName s) ∧ FieldEnds printedExample := by
  have w : ∀ s : Str, (lexIdentStr s = some (s, [])) → (∀ x ∈ keywords, x.1 ≠ s) → PlainName s := by
    intro s h1 h2
    exact ⟨((lexIdentStr_iff s s []).mp h1).2.1, fun t ht => h2 _ ht rfl⟩
  constructor
  · intro s hs
    have e : moduleNames printedExample = [c!"blog", c!"o", c!"id", c!"n_2", c!"b", c!"o", c!"n_2", c!"o", c!"o"] := by decide
    rw [e] at hs
    simp only [List.mem_cons, List.not_mem_nil, or_false] at hs
    rcases hs with rfl | rfl | rfl | rfl | rfl | rfl | rfl | rfl | rfl <;> exact w _ (by decide +kernel) (by decide)
  · intro r hr
    simp [printedExample] at hr
    subst hr
    exact ⟨⟨_, _, rfl⟩, _, _, rfl⟩

/-- The hypotheses are needed: a keyword as name, a name with a blank, and an end without field do not survive. -/
example : (parse (Module.display ⟨none, [.definition ⟨c!"int", []⟩]⟩)).1 = none ∧
    (parse (Module.display ⟨some c!"a b", []⟩)).1 = none ∧
    (parse (Module.display ⟨none, [.relation ⟨.entity c!"a", .entity c!"a"⟩]⟩)).1 = none := by decide +kernel

/-! ## C02 -/

/-- A name in back quotes. -/
def Spec.quote (s : Str) : Str := '`' :: (s.flatMap (fun c => if c = '\\' ∨ c = '`' then ['\\', c] else [c]) ++ ['`'])

theorem pieces_quote (s : Str) : Pieces s (s.flatMap fun c => if c = '\\' ∨ c = '`' then ['\\', c] else [c]) 0 := by
  induction s with
  | nil => exact .nil
  | cons c s ih =>
    rw [List.flatMap_cons]
    refine Pieces.cons (e := 0) ?_ ih
    split_ifs with h
    · rcases h with rfl | rfl
      · exact .escape _ _ (by simp [escapes])
      · exact .escape _ _ (by simp [escapes])
    · rw [not_or] at h
      exact .raw c h.1 h.2

/-- **C02.** Every module can be written down: with all names in back quotes. -/
theorem C02_every_module (m : Module) : ∃ src, parse src = (some m, [], []) :=
  ⟨printModule quote m, parse_print m fun s _ => .quoted (pieces_quote s)⟩

/-- Empty names, keywords, back quotes and newlines. -/
example : parse c!"erd `` {\n    `int` { `\\`\n` int }\n    `int`. o--o `int`.``\n}" =
    (some ⟨some [], [.definition ⟨c!"int", [⟨c!"`\n", .int, none⟩]⟩, .relation ⟨.entity c!"int", .field c!"int" []⟩]⟩, [], []) := by decide +kernel

end Seiren
