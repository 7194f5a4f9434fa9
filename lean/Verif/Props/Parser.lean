import Verif.Proofs.Parser
/-! # C05 (tokens), C09–C13: the parser -/

namespace Seiren
open Spec

/-! ## C09 -/

/-- **C09.** The parser returns a module exactly if a prefix of the tokens is derived for it by the implemented grammar. -/
theorem C09_grammar_exact (ts : List Token) (m : Module) :
    (parseTokens ts).1 = some m ↔ ∃ w r, ts = w ++ r ∧ ModuleG implemented m w := by
  unfold parseTokens
  constructor
  · intro h
    cases hp : pModule ts with
    | none => rw [hp] at h; cases h
    | some x =>
      obtain ⟨m', r⟩ := x
      rw [hp] at h
      simp only [Option.some.injEq] at h
      subst h
      obtain ⟨w, e, hw⟩ := pModule_sound hp
      exact ⟨w, r, e, hw⟩
  · rintro ⟨w, r, rfl, hw⟩
    obtain ⟨r', hr⟩ := pModule_complete m w r hw
    rw [hr]

/-- The tokens of a module with an entity and a relation, its grammar derivation (via the theorem), and a token too many. -/
def exampleTokens : List Token :=
  [.newline, .erd, .ident c!"blog", .ctrl '{', .newline, .ident c!"a", .ctrl '{', .ident c!"id", .uuid, .pk, .ctrl ';', .newline,
    .ident c!"n", .int, .ctrl '}', .ctrl ';', .ident c!"a", .ctrl '.', .edge, .ident c!"a", .ctrl '.', .ident c!"n", .newline, .ctrl '}',
    .ident c!"more"]

example : (parseTokens exampleTokens).1 =
    some ⟨some c!"blog", [.definition ⟨c!"a", [⟨c!"id", .uuid, some .primaryKey⟩, ⟨c!"n", .int, none⟩]⟩,
      .relation ⟨.entity c!"a", .field c!"a" c!"n"⟩]⟩ := by decide +kernel

/-! ## C11 -/

/-- **C11.** A token sequence is derived for at most one module (by the implemented grammar). -/
theorem C11_unambiguous (w : List Token) (m m' : Module) (h : ModuleG implemented m w) (h' : ModuleG implemented m' w) : m = m' := by
  have h1 := (C09_grammar_exact w m).mpr ⟨w, [], by simp, h⟩
  have h2 := (C09_grammar_exact w m').mpr ⟨w, [], by simp, h'⟩
  rw [h1] at h2
  exact Option.some.inj h2

/-- **C11**, stronger: not even two prefixes of a sequence are derived for different modules. -/
theorem C11_prefixes_unambiguous (w r w' r' : List Token) (m m' : Module) (h : ModuleG implemented m w) (h' : ModuleG implemented m' w')
    (he : w ++ r = w' ++ r') : m = m' := by
  have h1 := (C09_grammar_exact (w ++ r) m).mpr ⟨w, r, rfl, h⟩
  have h2 := (C09_grammar_exact (w ++ r) m').mpr ⟨w', r', he, h'⟩
  rw [h1] at h2
  exact Option.some.inj h2

/-! ## C12 -/

/-- **C12.** A module or exactly one parser error; and whether there is a module depends only on the recovered tokens, not on
tokenizer errors. -/
theorem C12_module_or_one_error (src : Str) :
    (((∃ m, (parse src).1 = some m) ∧ (parse src).2.2 = []) ∨ ((parse src).1 = none ∧ (parse src).2.2 = [.unexpected])) ∧
    ∃ tokens errs, tokenize src = (some tokens, errs) ∧ (parse src).2.1 = errs ∧
      ∀ m, (parse src).1 = some m ↔ ∃ w r, tokens.map Prod.fst = w ++ r ∧ ModuleG implemented m w := by
  have ht : ∃ tokens errs, tokenize src = (some tokens, errs) := ⟨_, _, rfl⟩
  obtain ⟨tokens, errs, ht⟩ := ht
  have hp : parse src = ((parseTokens (tokens.map Prod.fst)).1, errs, (parseTokens (tokens.map Prod.fst)).2) := by
    unfold parse; rw [ht]
  rw [hp]
  constructor
  · unfold parseTokens
    cases pModule (tokens.map Prod.fst) with
    | none => exact Or.inr ⟨rfl, rfl⟩
    | some x => exact Or.inl ⟨⟨_, rfl⟩, rfl⟩
  · exact ⟨tokens, errs, ht, rfl, fun m => C09_grammar_exact _ m⟩

/-- A tokenizer error (the `$`) and still a module; and a parser error. -/
example : parse c!"erd { $ a { } }" = (some ⟨none, [.definition ⟨c!"a", []⟩]⟩, [.unexpected 6], []) ∧
    parse c!"erd { a { b } }" = (none, [], [.unexpected]) := by decide +kernel

/-! ## C13 -/

/-- **C13 is false as stated**: whatever tokens follow a module, the module is returned without a parser error. -/
theorem C13_refuted (m : Module) (w r : List Token) (h : ModuleG implemented m w) : parseTokens (w ++ r) = (some m, []) := by
  obtain ⟨r', hr⟩ := pModule_complete m w r h
  unfold parseTokens
  rw [hr]

/-- Nothing is reported, by tokenizer or parser, about the second module, the garbage in between them and the missing brace. -/
theorem C13_refuted_source : parse c!"erd { a { } } b { { erd } erd { c { }" = (some ⟨none, [.definition ⟨c!"a", []⟩]⟩, [], []) := by
  decide +kernel

/-! ## C10 -/

/-- Every end of every relation of the module names a field. -/
def Spec.FieldEnds (m : Module) : Prop :=
  ∀ r, ModuleEntry.relation r ∈ m.entries → (∃ t f, r.startPath = .field t f) ∧ ∃ t f, r.endPath = .field t f

/-- Every entity of the module has a field. -/
def Spec.NoEmptyEntity (m : Module) : Prop := ∀ d, ModuleEntry.definition d ∈ m.entries → d.fields ≠ []

theorem Spec.More.mono {α : Type} {D D' : Dialect} {G G' : α → List Token → Prop} {as : List α} {w : List Token}
    (hpad : ∀ t ∈ w, D.pad t → D'.pad t) (hG : ∀ a ∈ as, ∀ v, (∀ t ∈ v, t ∈ w) → G a v → G' a v) (h : More D G as w) : More D' G' as w := by
  induction h with
  | done => exact .done
  | more s p a w as v hs hp ha hv ih =>
    refine .more s p a w as v hs ?_ ?_ ?_
    · intro t ht; exact hpad t (by simp [ht]) (hp t ht)
    · exact hG a (by simp) w (fun t ht => by simp [ht]) ha
    · exact ih (fun t ht => hpad t (by simp [ht])) (fun b hb x hx => hG b (by simp [hb]) x (fun t ht => by simp [hx t ht]))

theorem Spec.Items.mono {α : Type} {D D' : Dialect} {G G' : α → List Token → Prop} {as : List α} {w : List Token}
    (hpad : ∀ t ∈ w, D.pad t → D'.pad t) (hG : ∀ a ∈ as, ∀ v, (∀ t ∈ v, t ∈ w) → G a v → G' a v) (h : Items D G as w) : Items D' G' as w := by
  cases h with
  | empty => exact .empty
  | items a w as v ha hv =>
    refine .items a w as v (hG a (by simp) w (fun t ht => by simp [ht]) ha) (hv.mono ?_ ?_)
    · intro t ht; exact hpad t (by simp [ht])
    · intro b hb x hx; exact hG b (by simp [hb]) x (fun t ht => by simp [hx t ht])

theorem Spec.ModuleG.mono {D D' : Dialect} {m : Module} {w : List Token} (hpad : ∀ t ∈ w, D.pad t → D'.pad t)
    (hends : ∀ r, ModuleEntry.relation r ∈ m.entries → ∀ v, (D.ends r.startPath v → D'.ends r.startPath v) ∧ (D.ends r.endPath v → D'.ends r.endPath v))
    (hempty : ∀ d, ModuleEntry.definition d ∈ m.entries → d.fields = [] → D.padsEmptyBody → D'.padsEmptyBody)
    (h : ModuleG D m w) : ModuleG D' m w := by
  obtain ⟨p, q, n, r, ws, u, v, hp, hn, hw, rfl⟩ := h
  refine ⟨p, q, n, r, ws, u, v, ?_, ?_, ?_, rfl⟩
  · intro t ht
    refine hpad t ?_ (hp t ht)
    simp only [List.mem_append, List.mem_cons] at ht ⊢
    tauto
  · generalize m.name = mn at hn
    cases hn with
    | none => exact .none
    | some s z hz => exact .some s z fun t ht => hpad t (by simp [ht]) (hz t ht)
  · refine hw.mono (fun t ht => hpad t (by simp [ht])) ?_
    intro x hx y hy hxy
    have hpad' : ∀ t ∈ y, D.pad t → D'.pad t := fun t ht => hpad t (by simp [hy t ht])
    cases hxy with
    | definition hd =>
      obtain ⟨a, b, c, d, h1, h2, h3, rfl⟩ := hd
      refine .definition ⟨a, b, c, d, ?_, ?_, ?_, rfl⟩
      · intro t ht
        refine hpad' t ?_ (h1 t ht)
        simp only [List.mem_append, List.mem_cons] at ht ⊢
        tauto
      · exact h2.mono (fun t ht => hpad' t (by simp [ht])) (fun _ _ _ _ h => h)
      · intro he
        rcases h3 he with h | h
        · exact Or.inl (hempty _ hx he h)
        · exact Or.inr h
    | relation hr =>
      obtain ⟨a, b, c, d, h1, h2, h3, rfl⟩ := hr
      refine .relation ⟨a, b, c, d, (hends _ hx a).1 h1, (hends _ hx d).2 h2, ?_, rfl⟩
      intro t ht
      refine hpad' t ?_ (h3 t ht)
      simp only [List.mem_append, List.mem_cons] at ht ⊢
      tauto

/-- **C10**, as far as it holds, first part: a sentence of the documented grammar whose relation ends all name fields is
accepted, with that module as the result. -/
theorem C10_documented_accepted_partial (m : Module) (w : List Token) (h : ModuleG documented m w) (hf : FieldEnds m) :
    parseTokens w = (some m, []) := by
  have h' : ModuleG implemented m w := by
    refine ModuleG.mono (fun t _ ht => Or.inl ht) ?_ (fun _ _ _ _ => trivial) h
    intro r hr v
    obtain ⟨⟨t, f, h1⟩, ⟨t', f', h2⟩⟩ := hf r hr
    rw [h1, h2]
    constructor
    · intro hv; cases hv; exact .field _ _
    · intro hv; cases hv; exact .field _ _
  have := C13_refuted m w [] h'
  simpa using this

/-- **C10**, as far as it holds, second part: for modules without empty entities whose relation ends all name fields, and token
sequences without `;`, the parser returns the module exactly if a prefix is derived for it by the documented grammar.
Missing for the full claim, and each is a difference (`C10_refuted`): relation ends that name an entity, padding in an entity
without fields, `;` as padding. -/
theorem C10_documented_grammar_partial (m : Module) (ts : List Token) (hf : FieldEnds m) (he : NoEmptyEntity m) (hs : Token.ctrl ';' ∉ ts) :
    (parseTokens ts).1 = some m ↔ ∃ w r, ts = w ++ r ∧ ModuleG documented m w := by
  rw [C09_grammar_exact]
  constructor
  · rintro ⟨w, r, rfl, h⟩
    refine ⟨w, r, rfl, ModuleG.mono ?_ ?_ (fun d hd hn _ => he d hd hn) h⟩
    · rintro t ht (rfl | rfl)
      · rfl
      · exact absurd (List.mem_append.mpr (Or.inl ht)) hs
    · intro r hr v
      obtain ⟨⟨t, f, h1⟩, ⟨t', f', h2⟩⟩ := hf r hr
      rw [h1, h2]
      constructor
      · intro hv; cases hv; exact .field _ _
      · intro hv; cases hv; exact .field _ _
  · rintro ⟨w, r, rfl, h⟩
    refine ⟨w, r, rfl, ModuleG.mono (fun t _ ht => Or.inl ht) ?_ (fun _ _ _ _ => trivial) h⟩
    intro r hr v
    obtain ⟨⟨t, f, h1⟩, ⟨t', f', h2⟩⟩ := hf r hr
    rw [h1, h2]
    constructor
    · intro hv; cases hv; exact .field _ _
    · intro hv; cases hv; exact .field _ _

example : (parseTokens [.erd, .ctrl '{', .newline, .ident c!"a", .ctrl '{', .ident c!"id", .uuid, .ctrl '}', .newline,
      .ident c!"a", .ctrl '.', .ident c!"id", .edge, .ident c!"a", .ctrl '.', .ident c!"id", .ctrl '}']).1 =
    some ⟨none, [.definition ⟨c!"a", [⟨c!"id", .uuid, none⟩]⟩, .relation ⟨.field c!"a" c!"id", .field c!"a" c!"id"⟩]⟩ := by
  decide +kernel

/-- The tokens of `erd { a o--o a }`. -/
def plainRelation : List Token := [.erd, .ctrl '{', .ident c!"a", .edge, .ident c!"a", .ctrl '}']

/-- The tokens of `erd { a. o--o a. }`. -/
def dottedRelation : List Token := [.erd, .ctrl '{', .ident c!"a", .ctrl '.', .edge, .ident c!"a", .ctrl '.', .ctrl '}']

/-- Every dot is followed by an identifier. -/
def DotsFollowed (w : List Token) : Prop := ∀ a b, w = a ++ .ctrl '.' :: b → ∃ s b', b = .ident s :: b'

theorem dots_append {v w : List Token} (hv : DotsFollowed v) (hw : DotsFollowed w) : DotsFollowed (v ++ w) := by
  intro a b h
  rw [List.append_eq_append_iff] at h
  rcases h with ⟨c, rfl, h⟩ | ⟨c, rfl, h⟩
  · exact hw c b h
  · cases c with
    | nil => exact hw [] b h.symm
    | cons t c =>
      simp only [List.cons_append, List.cons.injEq] at h
      obtain ⟨rfl, rfl⟩ := h
      obtain ⟨s, b', hb⟩ := hv a c rfl
      exact ⟨s, b' ++ w, by rw [hb]; rfl⟩

theorem dots_none {w : List Token} (h : Token.ctrl '.' ∉ w) : DotsFollowed w := by
  rintro a b rfl
  simp at h

theorem dots_cons {t : Token} (h : t ≠ .ctrl '.') {w : List Token} (hw : DotsFollowed w) : DotsFollowed (t :: w) :=
  dots_append (v := [t]) (dots_none (by simpa using h.symm)) hw

theorem dots_pad {p : List Token} (h : ∀ t ∈ p, documented.pad t) : DotsFollowed p := by
  apply dots_none
  intro hm
  cases h _ hm

theorem dots_more {α : Type} {G : α → List Token → Prop} (hG : ∀ a w, G a w → DotsFollowed w) {as : List α} {w : List Token}
    (h : More documented G as w) : DotsFollowed w := by
  induction h with
  | done => exact dots_none (by simp)
  | more s p a w as v hs hp ha hv ih =>
    refine dots_cons ?_ (dots_append (dots_pad hp) (dots_append (hG a w ha) ih))
    rcases hs with rfl | rfl <;> simp

theorem dots_items {α : Type} {G : α → List Token → Prop} (hG : ∀ a w, G a w → DotsFollowed w) {as : List α} {w : List Token}
    (h : Items documented G as w) : DotsFollowed w := by
  cases h with
  | empty => exact dots_none (by simp)
  | items a w as v ha hv => exact dots_append (hG a w ha) (dots_more hG hv)

theorem dots_end {p : EntityPath} {w : List Token} (h : DocumentedEnd p w) : DotsFollowed w := by
  cases h with
  | field t f =>
    intro a b h
    match a with
    | [] => simp at h
    | [x] =>
      simp only [List.cons_append, List.nil_append, List.cons.injEq, true_and] at h
      exact ⟨f, [], h.2.symm⟩
    | [x, y] => simp at h
    | x :: y :: z :: a => simp at h
  | entity t => exact dots_none (by simp)

theorem dots_entry (x : ModuleEntry) (w : List Token) (h : EntryG documented x w) : DotsFollowed w := by
  cases h with
  | definition h =>
    obtain ⟨p, q, ws, r, hp, hw, -, rfl⟩ := h
    have h1 := dots_pad (p := p) fun t ht => hp t (by simp [ht])
    have h2 := dots_pad (p := q) fun t ht => hp t (by simp [ht])
    have h3 := dots_pad (p := r) fun t ht => hp t (by simp [ht])
    refine dots_cons (by simp) (dots_append h1 (dots_cons (by simp) (dots_append h2 (dots_append (dots_items ?_ hw) (dots_append h3 (dots_none (by simp)))))))
    rintro ⟨n, ty, k⟩ w rfl
    apply dots_none
    cases ty <;> rcases k with _ | ⟨⟨⟩⟩ <;> simp [typeToken, keyTokens]
  | relation h =>
    obtain ⟨a, p, q, b, ha, hb, hp, rfl⟩ := h
    have h1 := dots_pad (p := p) fun t ht => hp t (by simp [ht])
    have h2 := dots_pad (p := q) fun t ht => hp t (by simp [ht])
    exact dots_append (dots_end ha) (dots_append h1 (dots_cons (by simp) (dots_append h2 (dots_end hb))))

/-- In the sentences of the documented grammar every dot is followed by an identifier. -/
theorem dots_documented (m : Module) (w : List Token) (h : ModuleG documented m w) : DotsFollowed w := by
  obtain ⟨p, q, n, r, ws, u, v, hp, hn, hw, rfl⟩ := h
  have h1 := dots_pad (p := p) fun t ht => hp t (by simp [ht])
  have h2 := dots_pad (p := q) fun t ht => hp t (by simp [ht])
  have h3 := dots_pad (p := r) fun t ht => hp t (by simp [ht])
  have h4 := dots_pad (p := u) fun t ht => hp t (by simp [ht])
  have h5 := dots_pad (p := v) fun t ht => hp t (by simp [ht])
  have h6 : DotsFollowed n := by
    generalize m.name = mn at hn
    cases hn with
    | none => exact dots_none (by simp)
    | some s z hz => exact dots_cons (by simp) (dots_pad hz)
  exact dots_append h1 (dots_cons (by simp) (dots_append h2 (dots_append h6 (dots_cons (by simp) (dots_append h3
    (dots_append (dots_items dots_entry hw) (dots_append h4 (dots_cons (by simp) h5))))))))

/-- **C10 is false as stated**, in both directions: `erd { a o--o a }` is a sentence of the documented grammar but is not
accepted; `erd { a. o--o a. }` is accepted but is not a sentence of the documented grammar. -/
theorem C10_refuted :
    (∃ m w, ModuleG documented m w ∧ parseTokens w = (none, [.unexpected])) ∧
    (∃ m w, parseTokens w = (some m, []) ∧ ∀ m', ¬ ModuleG documented m' w) := by
  constructor
  · refine ⟨⟨none, [.relation ⟨.entity c!"a", .entity c!"a"⟩]⟩, plainRelation, ?_, by decide +kernel⟩
    refine ⟨[], [], [], [], [.ident c!"a", .edge, .ident c!"a"], [], [], by simp, .none, ?_, rfl⟩
    exact Items.items (ModuleEntry.relation ⟨.entity c!"a", .entity c!"a"⟩) _ [] [] (EntryG.relation (D := documented) ⟨[.ident c!"a"], [], [], [.ident c!"a"], DocumentedEnd.entity _, DocumentedEnd.entity _, by simp, rfl⟩) .done
  · refine ⟨⟨none, [.relation ⟨.entity c!"a", .entity c!"a"⟩]⟩, dottedRelation, by decide +kernel, ?_⟩
    intro m' h
    obtain ⟨s, b', hb⟩ := dots_documented m' _ h [.erd, .ctrl '{', .ident c!"a"] [.edge, .ident c!"a", .ctrl '.', .ctrl '}'] rfl
    simp at hb

/-! ## C05, tokens -/

/-- The tokens with every run of separators replaced by a single newline. -/
def collapse : List Token → List Token
  | [] => []
  | t :: ts => if isSep t then .newline :: collapse (skipPad ts) else t :: collapse ts
termination_by ts => ts.length
decreasing_by
  · simp only [List.length_cons, skipPad]
    have := (List.dropWhile_sublist (l := ts) isSep).length_le
    omega
  · simp

theorem collapse_sep {t : Token} (h : IsSeparator t) (ts : List Token) : collapse (t :: ts) = .newline :: collapse (skipPad ts) := by
  rw [collapse, if_pos ((isSep_iff t).mpr h)]

theorem collapse_tok {t : Token} (h : ¬ IsSeparator t) (ts : List Token) : collapse (t :: ts) = t :: collapse ts := by
  rw [collapse, if_neg (by rw [isSep_iff]; exact h)]

theorem collapse_run {p : List Token} (hp : ∀ t ∈ p, IsSeparator t) (hne : p ≠ []) (ts : List Token) :
    collapse (p ++ ts) = .newline :: collapse (skipPad ts) := by
  cases p with
  | nil => exact absurd rfl hne
  | cons t p => rw [List.cons_append, collapse_sep (hp t (by simp)), skipPad_pads fun t ht => hp t (by simp [ht])]

theorem collapse_skip {ts ts' : List Token} (h : collapse ts = collapse ts') : collapse (skipPad ts) = collapse (skipPad ts') := by
  cases ts with
  | nil =>
    cases ts' with
    | nil => rfl
    | cons t ts' =>
      by_cases ht : IsSeparator t
      · rw [collapse_sep ht] at h; simp [collapse] at h
      · rw [collapse_tok ht] at h; simp [collapse] at h
  | cons t ts =>
    cases ts' with
    | nil =>
      by_cases ht : IsSeparator t
      · rw [collapse_sep ht] at h; simp [collapse] at h
      · rw [collapse_tok ht] at h; simp [collapse] at h
    | cons t' ts' =>
      by_cases ht : IsSeparator t <;> by_cases ht' : IsSeparator t'
      · rw [collapse_sep ht, collapse_sep ht'] at h
        have e1 := skipPad_pads (p := [t]) (by simpa using ht) ts
        have e2 := skipPad_pads (p := [t']) (by simpa using ht') ts'
        rw [List.singleton_append] at e1 e2
        rw [e1, e2]
        exact (List.cons.inj h).2
      · rw [collapse_sep ht, collapse_tok ht'] at h
        exact absurd (Or.inl (List.cons.inj h).1.symm) ht'
      · rw [collapse_tok ht, collapse_sep ht'] at h
        exact absurd (Or.inl (List.cons.inj h).1) ht
      · rw [skipPad_stop ht, skipPad_stop ht']; exact h

theorem collapse_append (a ts ts' : List Token) (h : collapse ts = collapse ts') : collapse (a ++ ts) = collapse (a ++ ts') := by
  have key : ∀ n (a : List Token), a.length ≤ n → collapse (a ++ ts) = collapse (a ++ ts') := by
    intro n
    induction n with
    | zero =>
      intro a ha
      have : a = [] := List.length_eq_zero_iff.mp (by omega)
      subst this; exact h
    | succ n ih =>
      intro a ha
      cases a with
      | nil => exact h
      | cons t a =>
        by_cases ht : IsSeparator t
        · rw [List.cons_append, List.cons_append, collapse_sep ht, collapse_sep ht]
          congr 1
          exact collapse_skip (ih a (by simpa using ha))
        · rw [List.cons_append, List.cons_append, collapse_tok ht, collapse_tok ht, ih a (by simpa using ha)]
  exact key _ a (le_refl _)

/-- Padding before a token that is no separator, in another sequence with the same collapsed form. -/
theorem collapse_pads_inv {p : List Token} (hp : ∀ t ∈ p, IsSeparator t) {t : Token} (ht : ¬ IsSeparator t) {X ts : List Token}
    (h : collapse ts = collapse (p ++ t :: X)) :
    ∃ p' X', ts = p' ++ t :: X' ∧ (∀ t ∈ p', IsSeparator t) ∧ collapse X' = collapse X ∧ (p ≠ [] → p' ≠ []) := by
  obtain ⟨p', hp', e⟩ := skipPad_split ts
  have h2 := collapse_skip h
  rw [skipPad_to hp ht, collapse_tok ht] at h2
  cases hs : skipPad ts with
  | nil => rw [hs] at h2; simp [collapse] at h2
  | cons t' X' =>
    have hd : ¬ IsSeparator t' := by
      rcases dropWhile_head isSep ts with h3 | ⟨a, r, h3, ha⟩
      · rw [skipPad, h3] at hs; cases hs
      · rw [skipPad, h3] at hs
        cases hs
        rw [← isSep_iff, ha]; simp
    rw [hs, collapse_tok hd] at h2
    obtain ⟨rfl, h4⟩ := List.cons.inj h2
    refine ⟨p', X', by rw [← hs]; exact e, hp', h4, ?_⟩
    rintro hne rfl
    rw [List.nil_append, hs] at e
    rw [e, collapse_tok hd, collapse_run hp hne] at h
    exact hd (Or.inl (List.cons.inj h).1)

theorem collapse_tok_inv {t : Token} (ht : ¬ IsSeparator t) {X ts : List Token} (h : collapse ts = collapse (t :: X)) :
    ∃ X', ts = t :: X' ∧ collapse X' = collapse X := by
  cases ts with
  | nil => rw [collapse_tok ht] at h; simp [collapse] at h
  | cons t' X' =>
    by_cases ht' : IsSeparator t'
    · rw [collapse_sep ht', collapse_tok ht] at h
      exact absurd (Or.inl (List.cons.inj h).1.symm) ht
    · rw [collapse_tok ht', collapse_tok ht] at h
      obtain ⟨rfl, h5⟩ := List.cons.inj h
      exact ⟨X', rfl, h5⟩

/-- Tokens that are no separators are the same. -/
theorem collapse_toks_inv {w : List Token} (hw : ∀ t ∈ w, ¬ IsSeparator t) {X ts : List Token} (h : collapse ts = collapse (w ++ X)) :
    ∃ X', ts = w ++ X' ∧ collapse X' = collapse X := by
  induction w generalizing ts with
  | nil => exact ⟨ts, rfl, h⟩
  | cons t w ih =>
    obtain ⟨X1, rfl, h1⟩ := collapse_tok_inv (hw t (by simp)) h
    obtain ⟨X2, rfl, h2⟩ := ih (fun t ht => hw t (by simp [ht])) h1
    exact ⟨X2, rfl, h2⟩

section
variable {α : Type} {G : α → List Token → Prop} (hG : ∀ a w, G a w → ∃ t w', w = t :: w' ∧ ¬ IsSeparator t)
  (hI : ∀ a w X ts, G a w → collapse ts = collapse (w ++ X) → ∃ w' X', ts = w' ++ X' ∧ G a w' ∧ collapse X' = collapse X)
include hG hI

theorem collapse_more {as : List α} {w : List Token} (h : More implemented G as w) {X ts : List Token} (he : collapse ts = collapse (w ++ X)) :
    ∃ w' X', ts = w' ++ X' ∧ More implemented G as w' ∧ collapse X' = collapse X := by
  induction h generalizing ts with
  | done => exact ⟨[], ts, rfl, .done, he⟩
  | more s p a w as v hs hp ha hv ih =>
    obtain ⟨t, w1, rfl, ht⟩ := hG a w ha
    rw [show s :: (p ++ ((t :: w1) ++ v)) ++ X = (s :: p) ++ t :: (w1 ++ (v ++ X)) by simp] at he
    obtain ⟨q, X1, rfl, hq, h1, hne⟩ := collapse_pads_inv (p := s :: p) (by
      intro x hx
      rw [List.mem_cons] at hx
      rcases hx with rfl | hx
      · exact hs
      · exact hp x hx) ht he
    have h2 : collapse (t :: X1) = collapse ((t :: w1) ++ (v ++ X)) := by
      rw [List.cons_append, collapse_tok ht, collapse_tok ht, h1]
    obtain ⟨w2, X2, e2, hw2, h3⟩ := hI a _ _ _ ha h2
    obtain ⟨v2, X3, rfl, hv2, h4⟩ := ih h3
    cases q with
    | nil => exact absurd rfl (hne (by simp))
    | cons s' q =>
      refine ⟨s' :: (q ++ (w2 ++ v2)), X3, ?_, .more s' q a w2 as v2 (hq s' (by simp)) (fun t ht => hq t (by simp [ht])) hw2 hv2, h4⟩
      rw [e2]; simp

theorem collapse_items {as : List α} {w : List Token} (h : Items implemented G as w) {X ts : List Token} (he : collapse ts = collapse (w ++ X)) :
    ∃ w' X', ts = w' ++ X' ∧ Items implemented G as w' ∧ collapse X' = collapse X := by
  cases h with
  | empty => exact ⟨[], ts, rfl, .empty, he⟩
  | items a w as v ha hv =>
    rw [List.append_assoc] at he
    obtain ⟨w2, X2, rfl, hw2, h3⟩ := hI a _ _ _ ha he
    obtain ⟨v2, X3, rfl, hv2, h4⟩ := collapse_more hG hI hv h3
    exact ⟨w2 ++ v2, X3, by simp, .items a w2 as v2 hw2 hv2, h4⟩

end

theorem collapse_field (f : EntityField) (w X ts : List Token) (h : FieldG f w) (he : collapse ts = collapse (w ++ X)) :
    ∃ w' X', ts = w' ++ X' ∧ FieldG f w' ∧ collapse X' = collapse X := by
  obtain ⟨X', rfl, h'⟩ := collapse_toks_inv (w := w) (by
    obtain ⟨n, ty, k⟩ := f
    unfold FieldG at h
    subst h
    cases ty <;> rcases k with _ | ⟨⟨⟩⟩ <;> simp [typeToken, keyTokens, IsSeparator]) he
  exact ⟨w, X', rfl, h, h'⟩

theorem collapse_end {p : EntityPath} {w X ts : List Token} (h : DottedEnd p w) (he : collapse ts = collapse (w ++ X)) :
    ∃ X', ts = w ++ X' ∧ collapse X' = collapse X := by
  apply collapse_toks_inv _ he
  cases h <;> simp [IsSeparator]

/-- Items between paddings, before a closing brace. -/
theorem collapse_body {α : Type} {G : α → List Token → Prop} (hG : ∀ a w, G a w → ∃ t w', w = t :: w' ∧ ¬ IsSeparator t)
    (hI : ∀ a w X ts, G a w → collapse ts = collapse (w ++ X) → ∃ w' X', ts = w' ++ X' ∧ G a w' ∧ collapse X' = collapse X)
    {as : List α} {q ws r X ts : List Token} (hq : ∀ t ∈ q, IsSeparator t) (hr : ∀ t ∈ r, IsSeparator t) (hw : Items implemented G as ws)
    (he : collapse ts = collapse (q ++ (ws ++ (r ++ .ctrl '}' :: X)))) :
    ∃ q' ws' r' X', ts = q' ++ (ws' ++ (r' ++ .ctrl '}' :: X')) ∧ (∀ t ∈ q', IsSeparator t) ∧ (∀ t ∈ r', IsSeparator t) ∧
      Items implemented G as ws' ∧ collapse X' = collapse X := by
  cases hw with
  | empty =>
    rw [List.nil_append, ← List.append_assoc] at he
    obtain ⟨p', X', rfl, hp', h1, -⟩ := collapse_pads_inv (p := q ++ r) (by
      intro t ht
      rw [List.mem_append] at ht
      rcases ht with ht | ht
      · exact hq t ht
      · exact hr t ht) not_sep_close he
    exact ⟨p', [], [], X', by simp, hp', by simp, .empty, h1⟩
  | items a w as v ha hv =>
    obtain ⟨t, w1, rfl, ht⟩ := hG a w ha
    rw [show q ++ ((t :: w1) ++ v ++ (r ++ .ctrl '}' :: X)) = q ++ t :: (w1 ++ v ++ (r ++ .ctrl '}' :: X)) by simp] at he
    obtain ⟨q', X1, rfl, hq', h1, -⟩ := collapse_pads_inv hq ht he
    have h2 : collapse (t :: X1) = collapse ((t :: w1) ++ v ++ (r ++ .ctrl '}' :: X)) := by
      rw [show (t :: w1) ++ v ++ (r ++ .ctrl '}' :: X) = t :: (w1 ++ v ++ (r ++ .ctrl '}' :: X)) by simp, collapse_tok ht,
        collapse_tok ht, h1]
    obtain ⟨ws', X2, e2, hw', h3⟩ := collapse_items hG hI (.items a _ as v ha hv) h2
    obtain ⟨r', X3, rfl, hr', h4, -⟩ := collapse_pads_inv hr not_sep_close h3
    exact ⟨q', ws', r', X3, by rw [e2], hq', hr', hw', h4⟩

theorem collapse_entry (x : ModuleEntry) (w X ts : List Token) (h : EntryG implemented x w) (he : collapse ts = collapse (w ++ X)) :
    ∃ w' X', ts = w' ++ X' ∧ EntryG implemented x w' ∧ collapse X' = collapse X := by
  cases h with
  | definition h =>
    obtain ⟨p, q, ws, r, hp, hw, -, rfl⟩ := h
    rename_i d
    simp only [List.mem_append] at hp
    rw [show .ident d.name :: (p ++ .ctrl '{' :: (q ++ (ws ++ (r ++ [.ctrl '}'])))) ++ X =
      .ident d.name :: (p ++ .ctrl '{' :: (q ++ (ws ++ (r ++ .ctrl '}' :: X)))) by simp] at he
    obtain ⟨X1, rfl, h1⟩ := collapse_tok_inv (not_sep_ident _) he
    obtain ⟨p', X2, rfl, hp', h2, -⟩ := collapse_pads_inv (fun t ht => hp t (Or.inl (Or.inl ht))) not_sep_open h1
    obtain ⟨q', ws', r', X3, rfl, hq', hr', hw', h3⟩ := collapse_body (by rintro f w rfl; exact ⟨_, _, rfl, not_sep_ident _⟩) collapse_field
      (fun t ht => hp t (Or.inl (Or.inr ht))) (fun t ht => hp t (Or.inr ht)) hw h2
    refine ⟨.ident d.name :: (p' ++ .ctrl '{' :: (q' ++ (ws' ++ (r' ++ [.ctrl '}'])))), X3, by simp,
      .definition ⟨p', q', ws', r', ?_, hw', fun _ => Or.inl trivial, rfl⟩, h3⟩
    intro t ht
    simp only [List.mem_append] at ht
    rcases ht with (ht | ht) | ht
    · exact hp' t ht
    · exact hq' t ht
    · exact hr' t ht
  | relation h =>
    obtain ⟨a, p, q, b, ha, hb, hp, rfl⟩ := h
    obtain ⟨s, b1, hb1⟩ := DottedEnd.head hb
    simp only [List.mem_append] at hp
    rw [show a ++ (p ++ .edge :: (q ++ b)) ++ X = a ++ (p ++ .edge :: (q ++ (b ++ X))) by simp] at he
    obtain ⟨X1, rfl, h1⟩ := collapse_end ha he
    obtain ⟨p', X2, rfl, hp', h2, -⟩ := collapse_pads_inv (fun t ht => hp t (Or.inl ht)) not_sep_edge h1
    have h2' := h2
    rw [hb1, List.cons_append] at h2
    obtain ⟨q', X3, rfl, hq', h3, -⟩ := collapse_pads_inv (fun t ht => hp t (Or.inr ht)) (not_sep_ident s) h2
    have h4 : collapse (.ident s :: X3) = collapse (b ++ X) := by
      rw [hb1, List.cons_append, collapse_tok (not_sep_ident s), collapse_tok (not_sep_ident s), h3]
    obtain ⟨X4, e4, h5⟩ := collapse_end hb h4
    refine ⟨a ++ (p' ++ .edge :: (q' ++ b)), X4, by rw [e4]; simp, .relation ⟨a, p', q', b, ha, hb, ?_, rfl⟩, h5⟩
    intro t ht
    rw [List.mem_append] at ht
    rcases ht with ht | ht
    · exact hp' t ht
    · exact hq' t ht

theorem collapse_module {m : Module} {w : List Token} (h : ModuleG implemented m w) {X ts : List Token} (he : collapse ts = collapse (w ++ X)) :
    ∃ w' X', ts = w' ++ X' ∧ ModuleG implemented m w' := by
  obtain ⟨p, q, n, r, ws, u, v, hp, hn, hw, rfl⟩ := h
  simp only [List.mem_append] at hp
  rw [show p ++ .erd :: (q ++ (n ++ .ctrl '{' :: (r ++ (ws ++ (u ++ .ctrl '}' :: v))))) ++ X =
    p ++ .erd :: (q ++ (n ++ .ctrl '{' :: (r ++ (ws ++ (u ++ .ctrl '}' :: (v ++ X)))))) by simp] at he
  obtain ⟨p', X1, rfl, hp', h1, -⟩ := collapse_pads_inv (fun t ht => hp t (Or.inl (Or.inl (Or.inl (Or.inl ht))))) not_sep_erd he
  have hname : ∃ q' n' X2, X1 = q' ++ (n' ++ .ctrl '{' :: X2) ∧ (∀ t ∈ q', IsSeparator t) ∧ NameG implemented m.name n' ∧
      collapse X2 = collapse (r ++ (ws ++ (u ++ .ctrl '}' :: (v ++ X)))) := by
    generalize m.name = mn at hn
    have hq : ∀ t ∈ q, IsSeparator t := fun t ht => hp t (Or.inl (Or.inl (Or.inl (Or.inr ht))))
    cases hn with
    | none =>
      obtain ⟨q', X2, rfl, hq', h2, -⟩ := collapse_pads_inv hq not_sep_open h1
      exact ⟨q', [], X2, rfl, hq', .none, h2⟩
    | some s z hz =>
      obtain ⟨q', X2, rfl, hq', h2, -⟩ := collapse_pads_inv hq (not_sep_ident s) h1
      obtain ⟨z', X3, rfl, hz', h3, -⟩ := collapse_pads_inv hz not_sep_open h2
      exact ⟨q', .ident s :: z', X3, by simp, hq', .some s z' hz', h3⟩
  obtain ⟨q', n', X2, rfl, hq', hn', h2⟩ := hname
  obtain ⟨r', ws', u', X3, rfl, hr', hu', hw', h3⟩ := collapse_body (fun _ _ => EntryG.head) collapse_entry
    (fun t ht => hp t (Or.inl (Or.inl (Or.inr ht)))) (fun t ht => hp t (Or.inl (Or.inr ht))) hw h2
  refine ⟨p' ++ .erd :: (q' ++ (n' ++ .ctrl '{' :: (r' ++ (ws' ++ (u' ++ .ctrl '}' :: []))))), X3, by simp, p', q', n', r', ws', u', [], ?_, hn', hw', rfl⟩
  intro t ht
  simp only [List.mem_append, List.not_mem_nil, or_false] at ht
  rcases ht with ((ht | ht) | ht) | ht
  · exact hp' t ht
  · exact hq' t ht
  · exact hr' t ht
  · exact hu' t ht

/-- Token sequences that are the same up to the separators in their runs of separators give the same result. -/
theorem parseTokens_collapse (ts ts' : List Token) (h : collapse ts = collapse ts') : parseTokens ts = parseTokens ts' := by
  have one : ∀ a b m, collapse a = collapse b → (parseTokens a).1 = some m → (parseTokens b).1 = some m := by
    intro a b m hab ha
    obtain ⟨w, X, rfl, hw⟩ := (C09_grammar_exact a m).mp ha
    obtain ⟨w', X', rfl, hw'⟩ := collapse_module hw hab.symm
    exact (C09_grammar_exact _ m).mpr ⟨w', X', rfl, hw'⟩
  have fst : (parseTokens ts).1 = (parseTokens ts').1 := by
    cases h1 : (parseTokens ts).1 with
    | some m => exact (one ts ts' m h h1).symm
    | none =>
      cases h2 : (parseTokens ts').1 with
      | none => rfl
      | some m => rw [one ts' ts m h.symm h2] at h1; cases h1
  have snd : ∀ x, (parseTokens x).2 = if (parseTokens x).1.isSome then [] else [.unexpected] := by
    intro x; unfold parseTokens; cases pModule x <;> rfl
  exact Prod.ext fst (by rw [snd, snd, fst])

/-- **C05**, tokens: replacing a non-empty run of newlines and semicolons by another one changes nothing. -/
theorem C05_separators (a b p p' : List Token) (hp : ∀ t ∈ p, IsSeparator t) (hp' : ∀ t ∈ p', IsSeparator t) (hne : p ≠ []) (hne' : p' ≠ []) :
    parseTokens (a ++ p ++ b) = parseTokens (a ++ p' ++ b) := by
  apply parseTokens_collapse
  rw [List.append_assoc, List.append_assoc]
  apply collapse_append
  rw [collapse_run hp hne, collapse_run hp' hne']

example : parseTokens ([.erd, .ctrl '{', .ident c!"a", .ctrl '{', .ctrl '}'] ++ [.newline] ++ [.ident c!"b", .ctrl '{', .ctrl '}', .ctrl '}']) =
    parseTokens ([.erd, .ctrl '{', .ident c!"a", .ctrl '{', .ctrl '}'] ++ [.ctrl ';', .newline, .newline] ++ [.ident c!"b", .ctrl '{', .ctrl '}', .ctrl '}']) :=
  C05_separators _ _ _ _ (by simp [IsSeparator]) (by simp [IsSeparator]) (by simp) (by simp)

end Seiren
