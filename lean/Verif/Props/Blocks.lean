import Verif.Spec.Blocks
import Verif.Props.Lexer
import Verif.Props.Parser
import Verif.Props.Formatting
/-! # C105: a source can be edited block by block -/

namespace Seiren
open Spec

theorem Spec.Lexeme.ne_nil {t : Token} {w : Str} {e : Nat} (h : Lexeme t w e) : w ≠ [] := by
  rintro rfl
  cases h with
  | keyword h => simp [keywords] at h
  | word h => obtain ⟨c, cs, h, -⟩ := h; cases h

theorem Spec.Gap.before {g w r r' : Str} (hw : w ≠ []) (h : Gap g (w ++ r)) : Gap g (w ++ r') := by
  obtain ⟨c, cs, rfl⟩ := List.exists_cons_of_ne_nil hw
  cases h with
  | blanks h => exact .blanks h
  | comment h hx hr => exact .comment h hx (by simpa using hr)

theorem Spec.Gap.newline {g : Str} (h : Gap g []) (r : Str) : Gap g ('\n' :: r) := by
  cases h with
  | blanks h => exact .blanks h
  | comment h hx hr => exact .comment h hx (by simp)

theorem newline_not_word : ¬ WordChar '\n' := by unfold WordChar WordStart; decide

theorem layout_below {ls ls' : List (Token × Nat)} {t t' : Str} (h : Layout ls t) (h' : Layout ls' t') :
    Layout (ls ++ (.newline, 0) :: ls') (below t t') := by
  induction h with
  | @nil g hg =>
    exact .cons (w := c!"\n") (hg.newline t') .newline (by rintro ⟨c, cs, h, hc, -⟩; cases h; exact absurd (.inl hc) newline_not_word) h'
  | @cons tok w e g r ls hg hl hw _ ih =>
    have e : below (g ++ (w ++ r)) t' = g ++ (w ++ below r t') := by simp [below]
    rw [e]
    refine .cons (hg.before hl.ne_nil) hl (fun hword c hc => ?_) ih
    cases r with
    | nil =>
      obtain rfl : c = '\n' := by simpa [below, eq_comm] using hc
      exact newline_not_word
    | cons d ds => exact hw hword c (by simpa [below] using hc)

theorem spells_below {ts ts' : List Token} {t t' : Str} (h : Spells ts t) (h' : Spells ts' t') : Spells (ts ++ .newline :: ts') (below t t') := by
  obtain ⟨ls, h1, h2, rfl⟩ := h
  obtain ⟨ls', h1', h2', rfl⟩ := h'
  refine ⟨_, layout_below h1 h1', fun l hl => ?_, by simp⟩
  simp only [List.mem_append, List.mem_cons] at hl
  rcases hl with hl | rfl | hl
  · exact h2 l hl
  · rfl
  · exact h2' l hl

theorem sum_zero {ls : List (Token × Nat)} (h : ∀ l ∈ ls, l.2 = 0) : (ls.map Prod.snd).sum = 0 := by
  induction ls with
  | nil => rfl
  | cons l ls ih => rw [List.map_cons, List.sum_cons, h l (by simp), ih fun x hx => h x (by simp [hx])]

theorem spells_parse {ts : List Token} {t : Str} (h : Spells ts t) : parse t = ((parseTokens ts).1, [], (parseTokens ts).2) := by
  obtain ⟨ls, h1, h2, rfl⟩ := h
  rw [C04_layout_result ls t h1, sum_zero h2]
  rfl

/-! ## Blocks -/

theorem more_append {es es' : List ModuleEntry} {v ws : List Token} {s : Token} {p : List Token} (hs : IsSeparator s) (hp : ∀ t ∈ p, IsSeparator t)
    (h : More implemented (EntryG implemented) es v) (h' : Items implemented (EntryG implemented) es' ws) (hne : es' ≠ []) :
    More implemented (EntryG implemented) (es ++ es') (v ++ s :: (p ++ ws)) := by
  induction h with
  | done =>
    cases h' with
    | empty => exact absurd rfl hne
    | items a w as v ha hv => exact .more s p a w as v hs hp ha hv
  | more s' p' a w as v hs' hp' ha _ ih =>
    have := More.more s' p' a w _ _ hs' hp' ha ih
    simpa using this

theorem items_nil {ws : List Token} (h : Items implemented (EntryG implemented) [] ws) : ws = [] := by cases h; rfl

theorem items_append {es es' : List ModuleEntry} {ws ws' x : List Token} (hx : ∀ t ∈ x, IsSeparator t) (hx0 : x ≠ [])
    (h : Items implemented (EntryG implemented) es ws) (h' : Items implemented (EntryG implemented) es' ws') (h0 : es ≠ []) (h0' : es' ≠ []) :
    Items implemented (EntryG implemented) (es ++ es') (ws ++ (x ++ ws')) := by
  obtain ⟨s, p, rfl⟩ := List.exists_cons_of_ne_nil hx0
  cases h with
  | empty => exact absurd rfl h0
  | items a w as v ha hv =>
    have := Items.items a w _ _ ha (more_append (p := p) (hx s (by simp)) (fun t ht => hx t (List.mem_cons_of_mem _ ht)) hv h' h0')
    simpa using this

/-- **C105**: blocks below each other are a block, with the entries of both, in order. -/
theorem C105_below {es es' : List ModuleEntry} {t t' : Str} (h : Block es t) (h' : Block es' t') : Block (es ++ es') (below t t') := by
  obtain ⟨p, ws, q, hpq, hi, hsp⟩ := h
  obtain ⟨p', ws', q', hpq', hi', hsp'⟩ := h'
  have hb := spells_below hsp hsp'
  simp only [List.mem_append] at hpq hpq'
  have hn : IsSeparator .newline := .inl rfl
  by_cases h0 : es = []
  · subst h0
    rw [items_nil hi] at hb
    refine ⟨p ++ (q ++ .newline :: p'), ws', q', ?_, hi', by simpa using hb⟩
    intro s hs
    simp only [List.mem_append, List.mem_cons] at hs
    rcases hs with (hs | hs | rfl | hs) | hs
    · exact hpq s (.inl hs)
    · exact hpq s (.inr hs)
    · exact hn
    · exact hpq' s (.inl hs)
    · exact hpq' s (.inr hs)
  · by_cases h0' : es' = []
    · subst h0'
      rw [items_nil hi'] at hb
      refine ⟨p, ws, q ++ .newline :: (p' ++ q'), ?_, by simpa using hi, by simpa using hb⟩
      intro s hs
      simp only [List.mem_append, List.mem_cons] at hs
      rcases hs with hs | hs | rfl | hs | hs
      · exact hpq s (.inl hs)
      · exact hpq s (.inr hs)
      · exact hn
      · exact hpq' s (.inl hs)
      · exact hpq' s (.inr hs)
    · refine ⟨p, _, q', ?_, items_append (x := q ++ .newline :: p') ?_ (by simp) hi hi' h0 h0', by simpa using hb⟩
      · intro s hs
        rcases List.mem_append.mp hs with hs | hs
        · exact hpq s (.inl hs)
        · exact hpq' s (.inr hs)
      · intro s hs
        simp only [List.mem_append, List.mem_cons] at hs
        rcases hs with hs | rfl | hs
        · exact hpq s (.inr hs)
        · exact hn
        · exact hpq' s (.inl hs)

/-- **C105**: the module of a source that consists of a beginning, a block and an end, each on lines of its own. -/
theorem C105_source {name : Option Str} {es : List ModuleEntry} {a t z : Str} (ha : Opening name a) (h : Block es t) (hz : Closing z) :
    parse (below a (below t z)) = (some ⟨name, es⟩, [], []) := by
  obtain ⟨p, q, n, hpq, hn, hsa⟩ := ha
  obtain ⟨r, ws, u, hru, hi, hst⟩ := h
  obtain ⟨x, v, hx, hsz⟩ := hz
  have hb := spells_below hsa (spells_below hst hsz)
  have hg : ModuleG implemented ⟨name, es⟩
      (p ++ .erd :: (q ++ (n ++ .ctrl '{' :: ((.newline :: r) ++ (ws ++ ((u ++ .newline :: x) ++ .ctrl '}' :: [])))))) := by
    refine ⟨p, q, n, .newline :: r, ws, u ++ .newline :: x, [], ?_, hn, hi, rfl⟩
    intro s hs
    simp only [List.mem_append, List.mem_cons, List.not_mem_nil, or_false] at hs hpq hru
    show IsSeparator s
    rcases hs with ((hs | hs) | rfl | hs) | hs | rfl | hs
    · exact hpq s (.inl hs)
    · exact hpq s (.inr hs)
    · exact .inl rfl
    · exact hru s (.inl hs)
    · exact hru s (.inr hs)
    · exact .inl rfl
    · exact hx s hs
  have hp := C13_refuted _ _ v hg
  rw [spells_parse hb]
  have e : p ++ Token.erd :: (q ++ (n ++ [Token.ctrl '{'])) ++ Token.newline :: (r ++ (ws ++ u) ++ Token.newline :: (x ++ Token.ctrl '}' :: v)) =
      p ++ .erd :: (q ++ (n ++ .ctrl '{' :: ((.newline :: r) ++ (ws ++ ((u ++ .newline :: x) ++ .ctrl '}' :: []))))) ++ v := by simp
  rw [e, hp]

/-! ## Comments -/

theorem commentOut_line (x : Str) (hx : '\n' ∉ x) : commentOut x = '/' :: '/' :: x := by
  have : ∀ x : Str, '\n' ∉ x → x.flatMap (fun c => if c = '\n' then c!"\n//" else [c]) = x := by
    intro x hx
    induction x with
    | nil => rfl
    | cons c x ih =>
      simp only [List.mem_cons, not_or] at hx
      rw [List.flatMap_cons, ih hx.2, if_neg (Ne.symm hx.1)]
      rfl
  rw [commentOut, this x hx]

theorem commentOut_below (x t : Str) : commentOut (below x t) = below (commentOut x) (commentOut t) := by
  simp [commentOut, below]

/-- **C105**: whatever a text is (a table, a relation, half of one, something that is no source at all), with `//` in front of
each line it is a block without entries. -/
theorem C105_comment (t : Str) : Block [] (commentOut t) := by
  have key : ∀ (n : Nat) (t : Str), t.length ≤ n → Block [] (commentOut t) := by
    intro n
    induction n with
    | zero =>
      intro t ht
      obtain rfl : t = [] := List.length_eq_zero_iff.mp (by omega)
      exact ⟨[], [], [], by simp, .empty, [], .nil (.comment (g := []) (x := []) (by simp) (by simp) (by simp)), by simp, rfl⟩
    | succ n ih =>
      intro t ht
      by_cases hn : '\n' ∈ t
      · obtain ⟨x, r, hxr, hx⟩ := List.eq_append_cons_of_mem hn
        have ht' : t = below x r := hxr
        rw [ht', commentOut_below, commentOut_line x hx]
        have hb : Block [] ('/' :: '/' :: x) := ⟨[], [], [], by simp, .empty, [], .nil (.comment (g := []) (by simp) hx (by simp)), by simp, rfl⟩
        exact C105_below (es := []) (es' := []) hb (ih r (by rw [hxr, List.length_append, List.length_cons] at ht; omega))
      · rw [commentOut_line t hn]
        exact ⟨[], [], [], by simp, .empty, [], .nil (.comment (g := []) (by simp) hn (by simp)), by simp, rfl⟩
  exact key t.length t (Nat.le_refl _)

/-! ## Edits -/

/-- **C105**: a block in the middle of a source can be replaced by another one, commented out or left out, and blocks can be exchanged; the module changes
exactly there, and there are no errors. -/
theorem C105_edit {name : Option Str} {es₁ es es' es₂ : List ModuleEntry} {a t₁ t t' t₂ z : Str} (ha : Opening name a) (hz : Closing z)
    (h₁ : Block es₁ t₁) (h : Block es t) (h' : Block es' t') (h₂ : Block es₂ t₂) :
    parse (sourceOf a t₁ t t₂ z) = (some ⟨name, es₁ ++ (es ++ es₂)⟩, [], []) ∧
    parse (sourceOf a t₁ t' t₂ z) = (some ⟨name, es₁ ++ (es' ++ es₂)⟩, [], []) ∧
    parse (sourceOf a t₁ (commentOut t) t₂ z) = (some ⟨name, es₁ ++ es₂⟩, [], []) ∧
    parse (below a (below (below t₁ t₂) z)) = (some ⟨name, es₁ ++ es₂⟩, [], []) ∧
    parse (sourceOf a t₂ t t₁ z) = (some ⟨name, es₂ ++ (es ++ es₁)⟩, [], []) :=
  ⟨C105_source ha (C105_below h₁ (C105_below h h₂)) hz, C105_source ha (C105_below h₁ (C105_below h' h₂)) hz,
    C105_source (es := es₁ ++ es₂) ha (C105_below h₁ (C105_below (es := []) (C105_comment t) h₂)) hz, C105_source ha (C105_below h₁ h₂) hz,
    C105_source ha (C105_below h₂ (C105_below h h₁)) hz⟩

/-- **C105**: a block has one reading. -/
theorem C105_unique {es es' : List ModuleEntry} {t : Str} (h : Block es t) (h' : Block es' t) : es = es' := by
  have ho : Opening none c!"erd{" :=
    ⟨[], [], [], by simp, .none, [(.erd, 0), (.ctrl '{', 0)],
      layout_tok (w := c!"erd") (layout_tok (w := c!"{") (.nil (.blanks (by simp))) (.ctrl (by simp)) (by simp)) (.keyword (by simp [keywords]))
        (by intro _ c hc; obtain rfl : c = '{' := by simpa [eq_comm] using hc
            unfold WordChar WordStart; decide), by simp, rfl⟩
  have hc : Closing c!"}" := ⟨[], [], by simp, [(.ctrl '}', 0)], layout_tok (w := c!"}") (.nil (.blanks (by simp))) (.ctrl (by simp)) (by simp), by simp, rfl⟩
  have := (C105_source ho h hc).symm.trans (C105_source ho h' hc)
  simpa using this

/-- **C105**, for the program: commenting a block out, whatever is in it, has the effect of leaving it out: the same bytes, the same end, no errors. -/
theorem C105_output (rnd sq : Rat → Rat) (wr : Nat → Nat) (q : Queue) (esc : Str → Str) (w w' : World) (fname fname' : Str)
    (bs bs' : List UInt8) (hin : InputOf w fname (some bs)) (hin' : InputOf w' fname' (some bs')) {name : Option Str} {es₁ es₂ : List ModuleEntry}
    {a t₁ t₂ z : Str} (t : Str) (ha : Opening name a) (hz : Closing z) (h₁ : Block es₁ t₁) (h₂ : Block es₂ t₂)
    (hs : TextBytes (sourceOf a t₁ (commentOut t) t₂ z) bs) (hs' : TextBytes (below a (below (below t₁ t₂) z)) bs') :
    (runProgramM rnd sq wr q esc w).stdout = (runProgramM rnd sq wr q esc w').stdout ∧
    (runProgramM rnd sq wr q esc w).exit = (runProgramM rnd sq wr q esc w').exit ∧
    (runProgramM rnd sq wr q esc w).errors = [] ∧ (runProgramM rnd sq wr q esc w').errors = [] := by
  rw [runProgramM_input hin, runProgramM_input hin', (C77_utf8.1 bs _).mpr hs, (C77_utf8.1 bs' _).mpr hs']
  have hp := C105_source (es := es₁ ++ es₂) ha (C105_below h₁ (C105_below (es := []) (C105_comment t) h₂)) hz
  have hp' := C105_source ha (C105_below h₁ h₂) hz
  obtain ⟨h1, h2⟩ := finishMainM_congr rnd sq wr q esc fname fname' (congrArg Prod.fst (hp.trans hp'.symm))
  refine ⟨h1, h2, ?_, ?_⟩
  · rw [finishMainM_errors, ← List.length_eq_zero_iff, errors_length, sourceOf, hp]; rfl
  · rw [finishMainM_errors, ← List.length_eq_zero_iff, errors_length, hp']; rfl

/-! ## Which texts can be read -/

theorem laidOut_ne_nil {t : Token} {ts : List Token} {v r : Str} (h : LaidOut (t :: ts) v r) : v ≠ [] := by
  cases h with
  | cons hg hw h =>
    intro e
    simp only [List.append_eq_nil_iff] at e
    exact hw.1.ne_nil e.2.1

theorem laidOut_spells {ts : List Token} : ∀ {v t : Str}, LaidOut (ts ++ [.newline]) v [] → v = t ++ ['\n'] → t.getLast? ≠ some '\r' →
    Layout (ts.map fun x => (x, 0)) t := by
  induction ts with
  | nil =>
    intro v t h hv hr
    cases h with
    | @cons tok ts g w v r hg hw h =>
      cases h
      obtain ⟨hl, -⟩ := hw
      have key : w = c!"\n" ∨ w = c!"\r\n" := by
        cases hl with
        | keyword h => simp [keywords] at h
        | newline => exact .inl rfl
        | crlf => exact .inr rfl
      rcases key with rfl | rfl
      · obtain rfl : g = t := by simpa using hv
        refine .nil ?_
        cases hg with
        | blanks h => exact .blanks h
        | comment h hx hr => exact .comment h hx (by simp)
      · have : g ++ ['\r'] = t := by
          have : (g ++ ['\r']) ++ ['\n'] = t ++ ['\n'] := by simpa using hv
          exact List.append_cancel_right this
        rw [← this] at hr
        simp at hr
  | cons tok ts ih =>
    intro v t h hv hr
    cases h with
    | @cons _ _ g w v r hg hw h =>
      have hne : v ≠ [] := by
        rintro rfl
        obtain ⟨u, us, hus⟩ := List.exists_cons_of_ne_nil (l := ts ++ [Token.newline]) (by simp)
        have h' : LaidOut (ts ++ [Token.newline]) [] [] := h
        rw [hus] at h'
        exact laidOut_ne_nil h' rfl
      obtain ⟨t', c, rfl⟩ : ∃ t' c, v = t' ++ [c] := ⟨v.dropLast, v.getLast hne, (List.dropLast_concat_getLast hne).symm⟩
      have e : (g ++ (w ++ t')) ++ [c] = t ++ ['\n'] := by simpa using hv
      obtain ⟨e1, e2⟩ := List.append_inj' e rfl
      obtain rfl : c = '\n' := by simpa using e2
      subst e1
      refine .cons (r := t') (hg.before hw.1.ne_nil) hw.1 (fun hword c hc => ?_) (ih h rfl ?_)
      · refine (hw.2 hword).1 c ?_
        cases t' with
        | nil => cases hc
        | cons d ds => simpa using hc
      · intro h
        apply hr
        cases t' with
        | nil => cases h
        | cons d ds => rw [← List.append_assoc, List.getLast?_append, h]; rfl

theorem noToken_newline {r : Str} (h : NoTokenIn r) (x : Str) (e : r = x ++ ['\n']) : False := by
  obtain ⟨g, y, rfl, hg, -, hu⟩ := h
  rcases List.eq_nil_or_concat y with rfl | ⟨y', c, rfl⟩
  · have hn : '\n' ∈ g := by
      have : '\n' ∈ g ++ [] := by rw [e]; simp
      simpa using this
    cases hg with
    | blanks h => exact absurd (h _ hn) (by simp [Blank])
    | @comment g' x' _ h hx hr =>
      simp only [List.mem_append, List.mem_cons] at hn
      rcases hn with hn | hn | hn | hn
      · exact absurd (h _ hn) (by simp [Blank])
      · simp at hn
      · simp at hn
      · exact hx hn
  · rw [List.concat_eq_append, ← List.append_assoc] at e
    obtain rfl : c = '\n' := by simpa using (List.append_inj' e rfl).2
    refine hu ['\n'] ⟨y', by simp⟩ .newline c!"\n" 0 [] rfl ⟨.newline, ?_⟩
    rintro ⟨c, cs, h, hc, -⟩
    cases h
    exact absurd (.inl hc) newline_not_word

/-- **C105**: which texts can be read as which tokens is decided by the tokenizer: it is to be asked about the text and the end of its last line. -/
theorem C105_spells (ts : List Token) (t : Str) (hr : t.getLast? ≠ some '\r') :
    Spells ts t ↔ ∃ xs, tokenize (t ++ ['\n']) = (some xs, []) ∧ xs.map Prod.fst = ts ++ [.newline] := by
  constructor
  · rintro ⟨ls, h1, h2, rfl⟩
    obtain ⟨xs, hs, hm⟩ := scan_layout (layout_below h1 (Layout.nil (g := []) (.blanks (by simp)))) 0
    have e : ((ls ++ [(Token.newline, 0)]).map Prod.snd).sum = 0 := by rw [List.map_append, List.sum_append, sum_zero h2]; rfl
    rw [e] at hs
    exact ⟨xs, (tokenize_exact _ _ _).mpr hs, by rw [hm]; simp⟩
  · intro h
    obtain ⟨v, r, e, h1, h2⟩ := (C14_errors_exact _ _).mp h
    rcases List.eq_nil_or_concat r with rfl | ⟨r', c, rfl⟩
    · exact ⟨_, laidOut_spells h1 (by simpa using e.symm) hr, by simp, by simp [Function.comp_def]⟩
    · exfalso
      rw [List.concat_eq_append] at e h2
      rw [← List.append_assoc] at e
      obtain rfl : '\n' = c := by simpa using (List.append_inj' e rfl).2
      exact noToken_newline h2 r' rfl

/-- Two blocks. -/
def tableText : Str := c!"  // who buys\n\n  users {\n    id int PK; `the name` text\n  };"
def relationText : Str := c!"  orders.user o--o users.id"

theorem tableText_block : Block [.definition ⟨c!"users", [⟨c!"id", .int, some .primaryKey⟩, ⟨c!"the name", .text, none⟩]⟩] tableText := by
  refine ⟨[.newline, .newline], .ident c!"users" :: ([] ++ .ctrl '{' :: ([.newline] ++ ([.ident c!"id", .int, .pk, .ctrl ';', .ident c!"the name", .text] ++
    ([.newline] ++ [.ctrl '}'])))), [.ctrl ';'], ?_, ?_, ?_⟩
  · simp [IsSeparator]
  · have hf : Items implemented FieldG [⟨c!"id", .int, some .primaryKey⟩, ⟨c!"the name", .text, none⟩]
        ([.ident c!"id", .int, .pk] ++ .ctrl ';' :: ([] ++ ([.ident c!"the name", .text] ++ []))) :=
      .items _ _ _ _ rfl (.more _ _ _ _ _ _ (.inr rfl) (by simp) rfl .done)
    have hd : EntryG implemented (.definition ⟨c!"users", [⟨c!"id", .int, some .primaryKey⟩, ⟨c!"the name", .text, none⟩]⟩) _ :=
      .definition ⟨[], [.newline], _, [.newline], by simp [implemented, IsSeparator], hf, by simp, rfl⟩
    exact Items.items _ _ [] [] hd .done
  · exact (C105_spells _ _ (by decide)).mpr ⟨_, rfl, by decide +kernel⟩

theorem relationText_block : Block [.relation ⟨.field c!"orders" c!"user", .field c!"users" c!"id"⟩] relationText := by
  refine ⟨[], _, [], by simp, .items _ _ [] [] (EntryG.relation ⟨_, [], [], _, .field _ _, .field _ _, by simp, rfl⟩) .done, ?_⟩
  exact (C105_spells _ _ (by decide)).mpr ⟨_, rfl, by decide +kernel⟩

/-- The theorem at work: the table is commented out. -/
example : parse (sourceOf c!"erd shop {" relationText (commentOut tableText) c!"" c!"} // end") =
    (some ⟨some c!"shop", [.relation ⟨.field c!"orders" c!"user", .field c!"users" c!"id"⟩]⟩, [], []) ∧
    commentOut tableText = c!"//  // who buys\n//\n//  users {\n//    id int PK; `the name` text\n//  };" := by
  refine ⟨?_, by decide +kernel⟩
  have ho : Opening (some c!"shop") c!"erd shop {" := ⟨[], [], [.ident c!"shop"], by simp, .some _ [] (by simp), (C105_spells _ _ (by decide)).mpr ⟨_, rfl, by decide +kernel⟩⟩
  have hc : Closing c!"} // end" := ⟨[], [], by simp, (C105_spells _ _ (by decide)).mpr ⟨_, rfl, by decide +kernel⟩⟩
  have hb : Block [] c!"" := ⟨[], [], [], by simp, .empty, (C105_spells _ _ (by decide)).mpr ⟨_, rfl, by decide +kernel⟩⟩
  exact (C105_edit ho hc relationText_block tableText_block tableText_block hb).2.2.1

/-- Blocks on the same line are another matter: a comment would hide the second. -/
example : parse (c!"erd {" ++ c!" // a" ++ c!" b {}" ++ c!"\n}") = (some ⟨none, []⟩, [], []) := by decide +kernel

end Seiren
