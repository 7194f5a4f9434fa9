import Verif.Model.ParseErrors
import Verif.Proofs.Parser
/-! # Lemmas about the errors of the token parser

The parser is compared with a finite automaton that reads the tokens one by one.  The automaton only appears in proofs. -/

namespace Seiren

/-! ## Erasing the errors -/

/-- Forget the errors. -/
def erase {α : Type} (p : LP α) : P α := fun ts =>
  match p ts with
  | .ok (a, _, rest) => some (a, rest)
  | .error _ => none

theorem erase_just (t : Token) : erase (lJust t) = pJust t := by
  funext ts
  cases ts with
  | nil => rfl
  | cons t' ts =>
    simp only [erase, lJust, pJust]
    by_cases h : t = t' <;> simp [h]

theorem erase_ident : erase lIdent = pIdent := by
  funext ts
  rcases ts with _ | ⟨t, ts⟩
  · rfl
  · cases t <;> rfl

theorem erase_map {α β : Type} (f : α → β) (p : LP α) (ts : List Token) :
    erase (lMap f p) ts = (erase p ts).map fun x => (f x.1, x.2) := by
  simp only [erase, lMap]
  rcases p ts with e | ⟨a, alt, r⟩ <;> rfl

theorem erase_then {α β : Type} (p : LP α) (q : LP β) (ts : List Token) :
    erase (lThen p q) ts = (erase p ts).bind fun x => (erase q x.2).map fun y => ((x.1, y.1), y.2) := by
  simp only [erase, lThen]
  rcases p ts with e | ⟨a, alt, r⟩
  · rfl
  · simp only [Option.bind_some]
    rcases q r with e | ⟨b, alt', r'⟩ <;> rfl

theorem erase_ignoreThen {α β : Type} (p : LP α) (q : LP β) (ts : List Token) :
    erase (lIgnoreThen p q) ts = (erase p ts).bind fun x => erase q x.2 := by
  rw [lIgnoreThen, erase_map, erase_then]
  rcases erase p ts with _ | ⟨a, r⟩
  · rfl
  · simp only [Option.bind_some]
    rcases erase q r with _ | ⟨b, r'⟩ <;> rfl

theorem erase_thenIgnore {α β : Type} (p : LP α) (q : LP β) (ts : List Token) :
    erase (lThenIgnore p q) ts = (erase p ts).bind fun x => (erase q x.2).map fun y => (x.1, y.2) := by
  rw [lThenIgnore, erase_map, erase_then]
  rcases erase p ts with _ | ⟨a, r⟩
  · rfl
  · simp only [Option.bind_some]
    rcases erase q r with _ | ⟨b, r'⟩ <;> rfl

theorem erase_choice {α : Type} (p q : LP α) (ts : List Token) :
    erase (lChoice p q) ts = (erase p ts).or (erase q ts) := by
  simp only [erase, lChoice]
  rcases p ts with e | ⟨a, alt, r⟩
  · rcases q ts with e | ⟨b, alt', r'⟩ <;> rfl
  · rfl

theorem erase_orNot {α : Type} (p : LP α) (ts : List Token) : erase (lOrNot p) ts = some (pOrNot (erase p) ts) := by
  simp only [erase, lOrNot, pOrNot]
  rcases p ts with e | ⟨a, alt, r⟩ <;> rfl

/-- The expected tokens of `separator` and `pad`. -/
def sepExpected : List Token := [.ctrl ';', .newline]

theorem lSep_eq (ts : List Token) : lSep ts = match ts with
    | t :: r => if isSep t then .ok ((), none, r) else .error ⟨ts.length, sepExpected⟩
    | [] => .error ⟨0, sepExpected⟩ := by
  rcases ts with _ | ⟨t, r⟩
  · rfl
  · simp only [lSep, lChoice, lJust, isSep, sepExpected]
    by_cases h : t = Token.newline
    · subst h; simp
    · have h' : ¬ Token.newline = t := fun e => h e.symm
      simp only [h', if_false]
      by_cases h2 : t = Token.ctrl ';'
      · subst h2; simp
      · have h2' : ¬ Token.ctrl ';' = t := fun e => h2 e.symm
        simp [h2', h, h2, Located.max]

theorem skipPad_cons (t : Token) (ts : List Token) : skipPad (t :: ts) = if isSep t then skipPad ts else t :: ts := by
  simp only [skipPad, List.dropWhile_cons]

theorem skipPad_length_le (ts : List Token) : (skipPad ts).length ≤ ts.length := by
  induction ts with
  | nil => simp [skipPad]
  | cons t ts ih => rw [skipPad_cons]; split <;> simp; omega

theorem skipPad_idem (ts : List Token) : skipPad (skipPad ts) = skipPad ts := by
  induction ts with
  | nil => rfl
  | cons t ts ih =>
    rw [skipPad_cons]
    split
    · exact ih
    · rename_i h; rw [skipPad_cons, if_neg h]

theorem skipPad_head {ts : List Token} {t : Token} {r : List Token} (h : skipPad ts = t :: r) : isSep t = false := by
  have := skipPad_idem ts
  rw [h, skipPad_cons] at this
  by_cases hs : isSep t = true
  · rw [if_pos hs] at this
    have hl := skipPad_length_le r
    rw [this] at hl; simp at hl
  · simpa using hs

theorem lRepeatedLoop_sep (fuel : Nat) (ts : List Token) (alt : Option Located) (h : ts.length < fuel) :
    ∃ us, lRepeatedLoop lSep fuel alt ts = (us, mergeAlts alt (some ⟨(skipPad ts).length, sepExpected⟩), skipPad ts) := by
  induction fuel generalizing ts alt with
  | zero => omega
  | succ fuel ih =>
    rcases ts with _ | ⟨t, r⟩
    · exact ⟨[], by simp [lRepeatedLoop, lSep_eq, skipPad]⟩
    · rw [lRepeatedLoop, lSep_eq, skipPad_cons]
      by_cases hs : isSep t = true
      · simp only [hs, if_true]
        obtain ⟨us, hu⟩ := ih r (mergeAlts alt none) (by simp at h; omega)
        rw [hu]
        refine ⟨() :: us, ?_⟩
        rcases alt <;> rfl
      · simp only [hs]
        exact ⟨[], rfl⟩

theorem lPad_eq (ts : List Token) :
    ∃ us, lPad ts = .ok (us, some ⟨(skipPad ts).length, sepExpected⟩, skipPad ts) := by
  obtain ⟨us, h⟩ := lRepeatedLoop_sep (ts.length + 1) ts none (by omega)
  exact ⟨us, by simp only [lPad, lRepeated, h]; rfl⟩

theorem erase_pad (ts : List Token) : ∃ us, erase lPad ts = some (us, skipPad ts) := by
  obtain ⟨us, h⟩ := lPad_eq ts
  exact ⟨us, by simp [erase, h]⟩

theorem erase_sep : erase lSep = pSep := by
  funext ts
  rw [erase, lSep_eq]
  rcases ts with _ | ⟨t, r⟩
  · rfl
  · simp only [pSep]
    by_cases hs : isSep t = true <;> simp [hs]

theorem erase_padded {α : Type} (p : LP α) (ts : List Token) :
    erase (lPadded p) ts = (erase p (skipPad ts)).map fun x => (x.1, skipPad x.2) := by
  rw [lPadded, erase_thenIgnore, erase_ignoreThen]
  obtain ⟨us, h⟩ := erase_pad ts
  rw [h]
  simp only [Option.bind_some]
  rcases erase p (skipPad ts) with _ | ⟨a, r⟩
  · rfl
  · obtain ⟨vs, h'⟩ := erase_pad r
    simp [h']

theorem erase_fieldType : erase lFieldType = pFieldType := by
  funext ts
  simp only [lFieldType, erase_choice, erase_map, erase_just]
  rcases ts with _ | ⟨t, r⟩
  · rfl
  · cases t <;> simp [pJust, pFieldType]

theorem erase_fieldKey : erase lFieldKey = pFieldKey := by
  funext ts
  simp only [lFieldKey, erase_choice, erase_map, erase_just]
  rcases ts with _ | ⟨t, r⟩
  · rfl
  · cases t <;> simp [pJust, pFieldKey]

theorem erase_entity : erase lEntity = pEntity := by
  funext ts
  simp only [lEntity, erase_map, erase_then, erase_ident, erase_ignoreThen, erase_just, erase_orNot, pEntity]
  rcases pIdent ts with _ | ⟨n, r⟩
  · rfl
  · rcases h : pJust (.ctrl '.') r with _ | ⟨u, r'⟩
    · simp [h]
    · simp only [Option.bind_some, h, Option.bind_eq_bind]
      rcases pOrNot pIdent r' with ⟨_ | f, r''⟩ <;> rfl

theorem erase_entityField : erase lEntityField = pEntityField := by
  funext ts
  simp only [lEntityField, erase_map, erase_then, erase_ident, erase_fieldType, erase_orNot, erase_fieldKey, pEntityField]
  rcases pIdent ts with _ | ⟨n, r⟩
  · rfl
  · rcases h : pFieldType r with _ | ⟨u, r'⟩
    · simp [h]
    · simp [h]

theorem erase_repeated {α : Type} (item : LP α) (fuel fuel' : Nat) (ts : List Token) (alt : Option Located)
    (hp : ∀ ts a r, erase item ts = some (a, r) → r.length ≤ ts.length)
    (h : ts.length < fuel) (h' : ts.length ≤ fuel') :
    (fun x => (x.1, x.2.2)) (lRepeatedLoop (lIgnoreThen (lIgnoreThen lSep lPad) item) fuel alt ts) = pSepItems (erase item) fuel' ts := by
  induction fuel generalizing ts alt fuel' with
  | zero => omega
  | succ fuel ih =>
    rw [lRepeatedLoop]
    have he : erase (lIgnoreThen (lIgnoreThen lSep lPad) item) ts = (pSep ts).bind fun x => erase item (skipPad x.2) := by
      rw [erase_ignoreThen, erase_ignoreThen, erase_sep]
      rcases pSep ts with _ | ⟨u, r⟩
      · rfl
      · obtain ⟨us, hu⟩ := erase_pad r
        simp [hu]
    have hsep0 : pSep [] = none := rfl
    rcases fuel' with _ | fuel'
    · have : ts = [] := by cases ts <;> simp_all
      subst this
      simp only [hsep0, Option.bind_none] at he
      rw [erase] at he
      rcases hq : lIgnoreThen (lIgnoreThen lSep lPad) item [] with e | ⟨a, alt', r⟩
      · rfl
      · rw [hq] at he; simp at he
    · rw [pSepItems]
      rw [erase] at he
      rcases hq : lIgnoreThen (lIgnoreThen lSep lPad) item ts with e | ⟨a, alt', r⟩
      · rw [hq] at he
        rcases hs : pSep ts with _ | ⟨u, r⟩
        · rfl
        · rw [hs] at he
          simp only [Option.bind_some] at he
          simp only [← he]
      · rw [hq] at he
        rcases hs : pSep ts with _ | ⟨u, r0⟩
        · rw [hs] at he; simp at he
        · rw [hs] at he
          simp only [Option.bind_some] at he
          simp only [← he]
          have hl : r.length < ts.length := by
            obtain ⟨t, _, rfl⟩ := pSep_some hs
            have := hp _ _ _ he.symm
            have := skipPad_length_le r0
            simp; omega
          have := ih fuel' r (mergeAlts alt alt') (by omega) (by omega)
          rw [← this]

theorem erase_items {α : Type} (item : LP α) (hp : ∀ ts a r, erase item ts = some (a, r) → r.length ≤ ts.length) (ts : List Token) :
    (erase (lItems item) ts).map (fun x => (x.1.getD [], x.2)) = some (pItems (erase item) ts) := by
  simp only [lItems, erase_orNot, Option.map_some, pOrNot, erase_map, erase_then, pItems]
  rcases h : erase item ts with _ | ⟨a, r⟩
  · rfl
  · simp only [Option.bind_some]
    have := erase_repeated item (r.length + 1) r.length r none hp (by omega) (by omega)
    have hr : erase (lRepeated (lIgnoreThen (lIgnoreThen lSep lPad) item)) r = some (pSepItems (erase item) r.length r) := by
      rw [← this]; rfl
    rw [hr]
    rfl

theorem pEntityField_le (ts : List Token) (f : EntityField) (r : List Token) (h : erase lEntityField ts = some (f, r)) :
    r.length ≤ ts.length := by
  rw [erase_entityField] at h
  obtain ⟨w, rfl, _⟩ := pEntityField_sound h
  simp

theorem erase_entityFields (ts : List Token) : erase lEntityFields ts = some (pEntityFields ts) := by
  simp only [lEntityFields, erase_map, erase_padded, pEntityFields]
  have := erase_items lEntityField pEntityField_le (skipPad ts)
  rw [erase_entityField] at this
  rcases h : erase (lItems lEntityField) (skipPad ts) with _ | ⟨a, r⟩
  · rw [h] at this; simp at this
  · rw [h] at this
    simp only [Option.map_some, Option.some.injEq] at this
    simp [← this]

theorem erase_entityDefinition : erase lEntityDefinition = pEntityDefinition := by
  funext ts
  simp only [lEntityDefinition, erase_map, erase_thenIgnore, erase_then, erase_ident, erase_just, erase_entityFields, pEntityDefinition]
  rcases pIdent ts with _ | ⟨n, r⟩
  · rfl
  · obtain ⟨us, hu⟩ := erase_pad r
    simp only [Option.bind_some, hu, Option.map_some, Option.bind_eq_bind]
    rcases h : pJust (.ctrl '{') (skipPad r) with _ | ⟨u, r'⟩
    · rfl
    · simp only [Option.bind_some, Option.map_some]
      rcases h2 : pJust (.ctrl '}') (pEntityFields r').2 with _ | ⟨u, r''⟩
      · rfl
      · rfl

theorem erase_relation : erase lRelation = pRelation := by
  funext ts
  simp only [lRelation, erase_map, erase_then, erase_entity, erase_ignoreThen, erase_padded, erase_just, pRelation]
  rcases pEntity ts with _ | ⟨n, r⟩
  · rfl
  · simp only [Option.bind_some, Option.bind_eq_bind]
    rcases h : pJust .edge (skipPad r) with _ | ⟨u, r'⟩
    · rfl
    · simp only [Option.bind_some, Option.map_some]
      rcases h2 : pEntity (skipPad r') with _ | ⟨u, r''⟩
      · rfl
      · rfl

theorem erase_moduleEntry : erase lModuleEntry = pModuleEntry := by
  funext ts
  simp only [lModuleEntry, erase_choice, erase_map, erase_entityDefinition, erase_relation, pModuleEntry]
  rcases pEntityDefinition ts with _ | ⟨d, r⟩
  · rcases pRelation ts with _ | ⟨d, r⟩ <;> rfl
  · rfl

theorem pModuleEntry_le (ts : List Token) (f : ModuleEntry) (r : List Token) (h : erase lModuleEntry ts = some (f, r)) :
    r.length ≤ ts.length := by
  rw [erase_moduleEntry] at h
  obtain ⟨w, rfl, _⟩ := pModuleEntry_sound _ _ _ h
  simp

theorem erase_moduleEntries (ts : List Token) : erase lModuleEntries ts = some (pModuleEntries ts) := by
  simp only [lModuleEntries, erase_map, pModuleEntries]
  have := erase_items lModuleEntry pModuleEntry_le ts
  rw [erase_moduleEntry] at this
  exact this

/-- Erasing the errors of the parser with errors gives the parser of `Verif/Model/Parser.lean`. -/
theorem lModule_erase : erase lModule = pModule := by
  funext ts
  have hname : erase (lPadded lIdent) = fun ts => (pIdent (skipPad ts)).map fun (s, ts) => (s, skipPad ts) := by
    funext ts
    rw [erase_padded, erase_ident]
  simp only [lModule, erase_map, erase_padded, erase_thenIgnore, erase_then, erase_ignoreThen, erase_just, erase_orNot, hname,
    erase_moduleEntries, skipPad_idem, pModule]
  rcases h : pJust .erd (skipPad ts) with _ | ⟨u, r⟩
  · rfl
  · simp only [Option.bind_some, Option.map_some, Option.bind_eq_bind]
    generalize pOrNot _ (skipPad r) = nm
    rcases h2 : pJust (.ctrl '{') nm.2 with _ | ⟨u, r'⟩
    · rfl
    · simp only [Option.bind_some, Option.map_some]
      rcases h3 : pJust (.ctrl '}') (skipPad (pModuleEntries (skipPad r')).2) with _ | ⟨u, r''⟩
      · rfl
      · rfl

end Seiren
