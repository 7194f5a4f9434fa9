import Verif.Model.Reading
import Verif.Props.LexCombinators
/-! # Lemmas about the number of reads -/

namespace Seiren

section
variable {α β : Type}

theorem justReads_le (s : Str) (cs : List Char) : justReads s cs ≤ s.length := by
  induction s generalizing cs with
  | nil => simp [justReads]
  | cons p ps ih =>
    cases cs with
    | nil => simp [justReads]
    | cons c cs =>
      simp only [justReads]
      have := ih cs
      split <;> simp only [List.length_cons] <;> omega

theorem readsAfter_le {r : List Emitted × Except CharError (α × Option CharError × List Char)} {next : List Char → Nat} {b : Nat}
    (h : ∀ rest, next rest ≤ b) : readsAfter r next ≤ b := by
  unfold readsAfter
  split
  · exact h _
  · omega

theorem readsAfter_ok {p : K α} {cs em a rest} {next : List Char → Nat} (h : Yields p cs em a rest) : readsAfter (p cs) next = next rest := by
  obtain ⟨alt, h⟩ := h
  rw [h]
  rfl

theorem readsAfter_error {p : K α} {cs e} {next : List Char → Nat} (h : FailsAt p cs e) : readsAfter (p cs) next = 0 := by
  obtain ⟨em, h⟩ := h
  rw [h]
  rfl

theorem nThen_le {p : Counted α} {q : Counted β} {a b : Nat} (hp : ∀ cs, p.reads cs ≤ a) (hq : ∀ cs, q.reads cs ≤ b) (cs : List Char) :
    (nThen p q).reads cs ≤ a + b := Nat.add_le_add (hp cs) (readsAfter_le hq)

theorem nOr_le (pol : Policy) (p q : Counted α) (cs : List Char) : (nOr pol p q).reads cs ≤ p.reads cs + q.reads cs := by
  show p.reads cs + _ ≤ _
  split <;> omega

theorem le_nOr (pol : Policy) {p q : Counted α} {cs : List Char} {e : CharError} (h : FailsAt p.run cs e) :
    (nOr pol p q).reads cs = p.reads cs + q.reads cs := by
  obtain ⟨em, h⟩ := h
  show p.reads cs + _ = _
  rw [h]
  cases em <;> rfl

theorem nRecoverWith_ok (pol : Policy) {p : Counted α} {cs : List Char} {em a rest} (h : Yields p.run cs em a rest) :
    (nRecoverWith pol p).reads cs = p.reads cs := by
  obtain ⟨alt, h⟩ := h
  show p.reads cs + _ = _
  rw [h]
  rfl

theorem nRecoverWith_error (pol : Policy) {p : Counted α} {cs : List Char} {e} (h : FailsAt p.run cs e) :
    (nRecoverWith pol p).reads cs = p.reads cs + retryReads p cs := by
  obtain ⟨em, h⟩ := h
  show p.reads cs + _ = _
  rw [h]

/-- A repetition of a parser that reads at most `b` characters reads at most `b` for each character consumed, and `b` more. -/
theorem repeatedReads_const {p : Counted α} {b : Nat} (hb : ∀ cs, p.reads cs ≤ b) (hp : Consumes p.run) (min fuel n : Nat) (alt : Option CharError)
    (cs : List Char) {em xs alt' rest} (h : kRepeatedLoop p.run min none fuel n alt cs = (em, .ok (xs, alt', rest))) :
    rest.length ≤ cs.length ∧ repeatedReads p none fuel n cs ≤ b * (cs.length - rest.length + 1) := by
  induction fuel generalizing n alt cs em xs with
  | zero =>
    simp only [kRepeatedLoop] at h
    cases h
    simp [repeatedReads]
  | succ fuel ih =>
    rw [kRepeatedLoop, if_neg (by simp)] at h
    rw [repeatedReads, if_neg (by simp)]
    have hc := hb cs
    cases hr : p.run cs with
    | mk em1 r =>
      rw [hr] at h
      cases r with
      | error e =>
        simp only at h
        split at h
        · cases h
        · cases h
          simp only [readsAfter, Nat.sub_self]
          omega
      | ok r =>
        obtain ⟨a, alt1, r⟩ := r
        have hlt := hp _ _ _ _ _ hr
        simp only at h
        cases h2 : kRepeatedLoop p.run min none fuel (n + 1) (mergeCharAlts alt alt1) r with
        | mk em2 r2 =>
          rw [h2] at h
          cases r2 with
          | error e => cases h
          | ok r2 =>
            obtain ⟨xs2, alt2, rest2⟩ := r2
            cases h
            obtain ⟨i1, i2⟩ := ih _ _ _ h2
            refine ⟨by omega, ?_⟩
            simp only [readsAfter]
            have : cs.length - rest.length + 1 = (r.length - rest.length + 1) + (cs.length - r.length) := by omega
            rw [this, Nat.mul_add]
            have : b * 1 ≤ b * (cs.length - r.length) := Nat.mul_le_mul_left _ (by omega)
            omega

theorem nRepeated_const {p : Counted α} {b : Nat} (hb : ∀ cs, p.reads cs ≤ b) (hp : Consumes p.run) {cs em xs rest}
    (h : Yields (kRepeated p.run) cs em xs rest) : (nRepeated p).reads cs ≤ b * (cs.length - rest.length + 1) := by
  obtain ⟨alt, h⟩ := h
  exact (repeatedReads_const hb hp 0 _ 0 none cs h).2

/-- `.exactly(m)`. -/
theorem repeatedReads_exactly {p : Counted α} {b : Nat} (hb : ∀ cs, p.reads cs ≤ b) (m fuel n : Nat) (cs : List Char) (hn : n ≤ m) :
    repeatedReads p (some m) fuel n cs ≤ b * (m - n) := by
  induction fuel generalizing n cs with
  | zero => simp [repeatedReads]
  | succ fuel ih =>
    rw [repeatedReads]
    split
    · omega
    · rename_i h
      have h : m ≠ n := fun e => h (by rw [e])
      have : m - n = (m - (n + 1)) + 1 := by omega
      rw [this, Nat.mul_add]
      have := hb cs
      have : readsAfter (p.run cs) (repeatedReads p (some m) fuel (n + 1)) ≤ b * (m - (n + 1)) := readsAfter_le fun r => ih (n + 1) r (by omega)
      omega

end

/-! ## Tokens -/

theorem nCharTo_le (c d : Char) (cs : List Char) : (nCharTo c d).reads cs ≤ 1 := justReads_le [c] cs

theorem nEscape_le (pol : Policy) (total : Nat) (cs : List Char) : (nEscape pol total).reads cs ≤ 15 := by
  have hx : ∀ cs, (nExactly (nFilter fun c => (hexVal c).isSome) 4).reads cs ≤ 4 := fun cs => by
    have := repeatedReads_exactly (p := nFilter fun c => (hexVal c).isSome) (b := 1) (fun _ => le_rfl) 4 (cs.length + 1) 0 cs (by omega)
    exact this
  refine nThen_le (a := 1) (b := 14) (nCharTo_le _ _) ?_ cs
  intro cs
  have h10 : (nIgnoreThen (nCharTo 'u' 'u') (nValidate total validateUnicode (nExactly (nFilter fun c => (hexVal c).isSome) 4))).reads cs ≤ 1 + 4 :=
    nThen_le (nCharTo_le _ _) hx cs
  have c1 := nCharTo_le '\\' '\\' cs
  have c2 := nCharTo_le '/' '/' cs
  have c3 := nCharTo_le '"' '"' cs
  have c4 := nCharTo_le '`' '`' cs
  have c5 := nCharTo_le 'b' '\x08' cs
  have c6 := nCharTo_le 'f' '\x0C' cs
  have c7 := nCharTo_le 'n' '\n' cs
  have c8 := nCharTo_le 'r' '\r' cs
  have c9 := nCharTo_le 't' '\t' cs
  have add : ∀ {p q : Counted Char} {a b : Nat}, p.reads cs ≤ a → q.reads cs ≤ b → (nOr pol p q).reads cs ≤ a + b :=
    fun h1 h2 => (nOr_le pol _ _ cs).trans (Nat.add_le_add h1 h2)
  exact add (add (add (add (add (add (add (add (add c1 c2) c3) c4) c5) c6) c7) c8) c9) h10

theorem nQuotedChar_le (pol : Policy) (total : Nat) (cs : List Char) : (nQuotedChar pol total).reads cs ≤ 16 :=
  (nOr_le pol _ _ cs).trans (Nat.add_le_add (le_refl 1) (nEscape_le pol total cs))

/-- The length of the word at the front. -/
def wordLength (cs : List Char) : Nat :=
  match lexIdentStr cs with
  | some (_, rest) => cs.length - rest.length
  | none => 0

/-- The length of what can be read of a quoted name at the front. -/
def bodyLength : List Char → Nat
  | '`' :: l => l.length - (lexQuotedBody l.length l).2.2.length
  | _ => 0

theorem nIdentStr_le (cs : List Char) : nIdentStr.reads cs ≤ wordLength cs + 1 := by
  show 1 + readsAfter (kFilter _ cs) _ ≤ _
  cases cs with
  | nil => simp [kFilter, readsAfter]
  | cons c cs =>
    by_cases hc : isIdentStart c = true
    · have h1 : Yields (kFilter fun c => c.isAlpha || c == '_') (c :: cs) [] c cs := ⟨none, by
        unfold isIdentStart at hc
        simp only [kFilter]
        rw [if_pos hc]⟩
      rw [readsAfter_ok h1]
      have h2 := nRepeated_const (p := nFilter fun c => c.isAlphanum || c == '_') (b := 1) (fun _ => le_rfl) (C84_progress chumskyPolicy 0).1
        (yields_filter (fun c => c.isAlphanum || c == '_') cs)
      have h3 := (List.dropWhile_suffix (fun c : Char => c.isAlphanum || c == '_') (l := cs)).length_le
      simp only [wordLength, lexIdentStr, if_pos hc, List.length_cons]
      change _ ≤ cs.length + 1 - (cs.dropWhile fun c => c.isAlphanum || c == '_').length + 1
      omega
    · have : kFilter (fun c => c.isAlpha || c == '_') (c :: cs) = ([], .error ⟨(c :: cs).length, []⟩) := by
        unfold isIdentStart at hc
        simp only [kFilter]
        rw [if_neg hc]
      rw [this]
      simp [readsAfter]

theorem choiceReads_le {α : Type} {b : Nat} {p : Counted α} {rs : List (Counted α)} {cs : List Char} (hp : p.reads cs ≤ b) (h : ∀ r ∈ rs, r.reads cs ≤ b) :
    choiceReads p rs cs ≤ (rs.length + 1) * b := by
  induction rs generalizing p with
  | nil => simpa [choiceReads] using hp
  | cons r rs ih =>
    have := ih (h r List.mem_cons_self) fun x hx => h x (List.mem_cons_of_mem _ hx)
    rw [choiceReads, List.length_cons, Nat.add_mul (rs.length + 1), Nat.one_mul]
    split <;> omega

theorem nKeyword_le (pol : Policy) (cs : List Char) : (nKeyword pol).reads cs ≤ 7 * (wordLength cs + 1) := by
  have h := nIdentStr_le cs
  refine choiceReads_le (b := wordLength cs + 1) h ?_
  simp only [List.mem_cons, List.not_mem_nil, or_false]
  rintro r (rfl | rfl | rfl | rfl | rfl | rfl) <;> exact h

theorem nQuotedIdent_le (pol : Policy) (total : Nat) (cs : List Char) : (nQuotedIdent pol total).reads cs ≤ 18 + 16 * bodyLength cs := by
  show _ + readsAfter _ _ + readsAfter _ _ ≤ _
  have h3 : ∀ r : List Emitted × Except CharError (Str × Option CharError × List Char), readsAfter r (nCharTo '`' '`').reads ≤ 1 :=
    fun r => readsAfter_le (nCharTo_le _ _)
  have h1 : justReads c!"`" cs ≤ 1 := justReads_le _ _
  by_cases hq : ∃ l, cs = '`' :: l
  · obtain ⟨l, rfl⟩ := hq
    have hj : kJust c!"`" ('`' :: l) = ([], .ok (c!"`", none, l)) := by rw [kJust_eq]; simp [lexJust]
    have hb := kQuoted_loop pol total l.length 0 none l le_rfl (by intro e he; cases he)
    have h2 : (nRepeated (nQuotedChar pol total)).reads l ≤ 16 * (l.length - (lexQuotedBody l.length l).2.2.length + 1) :=
      nRepeated_const (nQuotedChar_le pol total) (C84_progress pol total).2.2.1 ⟨_, hb⟩
    have h4 : readsAfter ((nJust c!"`").run ('`' :: l)) (nRepeated (nQuotedChar pol total)).reads = (nRepeated (nQuotedChar pol total)).reads l := by
      rw [show (nJust c!"`").run ('`' :: l) = _ from hj]
      rfl
    rw [h4]
    refine (Nat.add_le_add (Nat.add_le_add h1 h2) (h3 _)).trans ?_
    simp only [bodyLength]
    omega
  · have h4 : readsAfter ((nJust c!"`").run cs) (nRepeated (nQuotedChar pol total)).reads = 0 := by
      have hk : (nJust c!"`").run cs = _ := kJust_eq c!"`" cs
      rw [hk]
      have : lexJust c!"`" cs = none := by
        cases h : lexJust c!"`" cs with
        | none => rfl
        | some r =>
          have := (lexJust_iff _ _ _).mp h
          exact absurd ⟨r, this⟩ hq
      rw [this]
      rfl
    rw [h4]
    refine (Nat.add_le_add (Nat.add_le_add h1 le_rfl) (h3 _)).trans ?_
    omega

theorem nToken_le (pol : Policy) (total : Nat) (cs : List Char) : (nToken pol total).reads cs ≤ 34 + 8 * wordLength cs + 16 * bodyLength cs := by
  have add : ∀ {p q : Counted Token} {a b : Nat}, p.reads cs ≤ a → q.reads cs ≤ b → (nOr pol p q).reads cs ≤ a + b :=
    fun h1 h2 => (nOr_le pol _ _ cs).trans (Nat.add_le_add h1 h2)
  have hn : nNewline.reads cs ≤ 3 := by
    show justReads c!"\n" cs + _ ≤ _
    have h1 := justReads_le c!"\n" cs
    have h2 : justReads c!"\r\n" cs ≤ 2 := justReads_le c!"\r\n" cs
    change _ ≤ 1 at h1
    split
    · omega
    · show _ + justReads c!"\r\n" cs ≤ 3
      omega
  have he : nEdge.reads cs ≤ 4 := justReads_le c!"o--o" cs
  have hc : nCtrl.reads cs ≤ 1 := le_rfl
  have hi : nIdent.reads cs ≤ wordLength cs + 1 := nIdentStr_le cs
  have := add (add (add (add (add he (nKeyword_le pol cs)) hi) (nQuotedIdent_le pol total cs)) hc) hn
  refine this.trans ?_
  omega

theorem lexQuotedBody_le (fuel : Nat) (cs : List Char) : (lexQuotedBody fuel cs).2.2.length ≤ cs.length := by
  induction fuel generalizing cs with
  | zero => exact le_rfl
  | succ fuel ih =>
    unfold lexQuotedBody
    cases h : lexQuotedChar cs with
    | none => exact le_rfl
    | some r =>
      obtain ⟨c, errs, rest⟩ := r
      have := (kQuotedChar_ok chumskyPolicy 0 h).2
      exact (ih rest).trans this.le

theorem bodyLength_plain {cs : List Char} (h : cs.head? ≠ some '`') : bodyLength cs = 0 := by
  unfold bodyLength
  split
  · exact absurd rfl h
  · rfl

theorem bodyLength_le (cs : List Char) : bodyLength cs ≤ cs.length := by
  unfold bodyLength
  split
  · simp only [List.length_cons]; omega
  · omega

theorem word_start {cs : List Char} {r : Str × List Char} (h : lexIdentStr cs = some r) : cs.head? ≠ some '`' := by
  cases cs with
  | nil => cases h
  | cons c cs =>
    simp only [lexIdentStr] at h
    split at h
    · rename_i hc
      rintro ⟨⟩
      exact absurd hc (by decide)
    · cases h

/-- A token that can be read is as long as the word and the quoted name in front. -/
theorem lengths_ok {cs rest : List Char} {t : Token} {errs : List LexError} (h : lexToken cs = some (t, errs, rest)) :
    wordLength cs + bodyLength cs ≤ cs.length - rest.length := by
  cases hw : lexIdentStr cs with
  | some r =>
    obtain ⟨w, r⟩ := r
    rw [bodyLength_plain (word_start hw)]
    have hle : rest.length ≤ r.length := by
      unfold lexToken at h
      cases he : lexEdge cs with
      | some x =>
        obtain ⟨t', r'⟩ := x
        rw [he] at h
        simp only [noErr, Option.map_some, Option.orElse_eq_orElse, Option.orElse, Option.some.injEq, Prod.mk.injEq] at h
        obtain ⟨-, -, rfl⟩ := h
        unfold lexEdge at he
        rw [Option.map_eq_some_iff] at he
        obtain ⟨a, ha, hb⟩ := he
        cases hb
        have := (lexJust_iff _ _ _).mp ha
        subst this
        cases hw
        simp [isIdentContinue]
        omega
      | none =>
        cases hk : lexKeyword cs with
        | some x =>
          obtain ⟨t', r'⟩ := x
          rw [he, hk] at h
          simp only [noErr, Option.map_some, Option.map_none, Option.orElse_eq_orElse, Option.orElse, Option.some.injEq, Prod.mk.injEq] at h
          obtain ⟨-, -, rfl⟩ := h
          have one : ∀ k t x, lexKeywordStr k t cs = some x → x.2 = r := by
            intro k t x hx
            unfold lexKeywordStr at hx
            rw [hw] at hx
            simp only at hx
            split at hx
            · cases hx; rfl
            · cases hx
          have two : ∀ {a b : Option (Token × List Char)}, (∀ x, a = some x → x.2 = r) → (∀ x, b = some x → x.2 = r) → ∀ x, (a <|> b) = some x → x.2 = r := by
            intro a b ha hb x hx
            cases a with
            | none => exact hb x hx
            | some y => exact ha x hx
          have := two (one _ _) (two (one _ _) (two (one _ _) (two (one _ _) (two (one _ _) (two (one _ _) (one _ _)))))) _ hk
          simp only at this
          rw [this]
        | none =>
          rw [he, hk] at h
          simp only [noErr, lexIdent, hw, Option.map_some, Option.map_none, Option.orElse_eq_orElse, Option.orElse, Option.some.injEq, Prod.mk.injEq] at h
          obtain ⟨-, -, rfl⟩ := h
          exact le_rfl
    simp only [wordLength, hw]
    omega
  | none =>
    have h0 : wordLength cs = 0 := by simp [wordLength, hw]
    rw [h0]
    by_cases hq : cs.head? = some '`'
    · obtain ⟨l, rfl⟩ : ∃ l, cs = '`' :: l := by
        cases cs with
        | nil => cases hq
        | cons c l => cases hq; exact ⟨l, rfl⟩
      have h1 : lexEdge ('`' :: l) = none := by simp [lexEdge, lexJust]
      have h2 : lexKeyword ('`' :: l) = none := by simp [lexKeyword, lexKeywordStr, hw]
      have h4 : lexCtrl ('`' :: l) = none := by simp [lexCtrl]
      have h5 : lexNewline ('`' :: l) = none := by simp [lexNewline]
      simp only [lexToken, noErr, h1, h2, h4, h5, lexIdent, hw, Option.map_none, Option.orElse_eq_orElse, Option.orElse] at h
      cases hb : lexQuotedIdent ('`' :: l) with
      | none => rw [hb] at h; cases h
      | some x =>
        rw [hb] at h
        cases h
        unfold lexQuotedIdent at hb
        simp only at hb
        split at hb
        · rename_i s errs' rest' hg
          cases hb
          simp only [bodyLength, hg, List.length_cons]
          omega
        · cases hb
    · rw [bodyLength_plain hq]
      omega

theorem nToken_ok (pol : Policy) (total : Nat) {cs rest : List Char} {t : Token} {errs : List LexError} (h : lexToken cs = some (t, errs, rest)) :
    (nToken pol total).reads cs ≤ 34 + 16 * (cs.length - rest.length) := by
  have := nToken_le pol total cs
  have := lengths_ok h
  omega

theorem nToken_fail (pol : Policy) (total : Nat) {cs : List Char} (h : lexToken cs = none) :
    (nToken pol total).reads cs ≤ 34 + 16 * bodyLength cs := by
  have := nToken_le pol total cs
  have : wordLength cs = 0 := by
    have := (lexToken_none h).1
    cases hw : lexIdentStr cs with
    | none => simp [wordLength, hw]
    | some r => simp [lexIdent, hw] at this
  omega

/-! ## Recovery -/

/-- The number of back quotes. -/
def quotes (cs : List Char) : Nat := cs.count '`'

theorem quotes_suffix {a b : List Char} (h : a <:+ b) : quotes a ≤ quotes b := h.sublist.count_le _

theorem quotes_tail (cs : List Char) : quotes cs.tail ≤ quotes cs := quotes_suffix (List.tail_suffix cs)

theorem bodyLength_quotes {cs : List Char} {n : Nat} (h : cs.length ≤ n) : bodyLength cs + n * quotes cs.tail ≤ n * quotes cs := by
  by_cases hq : cs.head? = some '`'
  · obtain ⟨l, rfl⟩ : ∃ l, cs = '`' :: l := by
      cases cs with
      | nil => cases hq
      | cons c l => cases hq; exact ⟨l, rfl⟩
    have := bodyLength_le ('`' :: l)
    have hc : quotes ('`' :: l) = quotes l + 1 := List.count_cons_self
    rw [hc, Nat.mul_add]
    simp only [List.tail_cons]
    omega
  · rw [bodyLength_plain hq]
    have := Nat.mul_le_mul_left n (quotes_tail cs)
    omega

theorem lexToken_suffix {cs rest : List Char} {t : Token} {errs : List LexError} (h : lexToken cs = some (t, errs, rest)) :
    rest <:+ cs ∧ rest.length < cs.length := by
  obtain ⟨w, e, rfl, hw, -⟩ := (lexToken_iff _ _ _ _).mp h
  refine ⟨⟨w, rfl⟩, ?_⟩
  have := List.length_pos_iff.mpr (lexeme_ne hw.1)
  rw [List.length_append]
  omega

theorem retry_le (pol : Policy) (total n : Nat) (cs : List Char) (hn : cs.length ≤ n) :
    (∀ t errs rest, lexRecover cs = some (t, errs, rest) → rest <:+ cs ∧ rest.length < cs.length ∧
      retryReads (nToken pol total) cs + 51 * rest.length + 16 * (n * quotes rest) ≤ 51 * cs.length + 34 + 16 * (n * quotes cs.tail)) ∧
    (lexRecover cs = none → retryReads (nToken pol total) cs ≤ 51 * cs.length + 34 + 16 * (n * quotes cs.tail)) := by
  induction cs with
  | nil => exact ⟨fun t errs rest h => (by cases h), fun _ => by simp only [retryReads]; omega⟩
  | cons c cs ih =>
    have hn' : cs.length ≤ n := by simp only [List.length_cons] at hn; omega
    cases ht : lexToken cs with
    | some r =>
      obtain ⟨t, errs, rest⟩ := r
      obtain ⟨alt, hk⟩ := kToken_ok pol total ht
      have h1 := nToken_ok pol total ht
      obtain ⟨s1, s2⟩ := lexToken_suffix ht
      have hr : retryReads (nToken pol total) (c :: cs) = 1 + (nToken pol total).reads cs := by
        rw [retryReads, show (nToken pol total).run cs = _ from hk]
        rfl
      refine ⟨?_, by simp [lexRecover, ht]⟩
      intro t' errs' rest' h
      simp only [lexRecover, ht] at h
      cases h
      have := Nat.mul_le_mul_left n (quotes_suffix s1)
      refine ⟨s1.trans (List.suffix_cons _ _), by simp only [List.length_cons]; omega, ?_⟩
      rw [hr]
      simp only [List.length_cons, List.tail_cons]
      omega
    | none =>
      obtain ⟨em', hk⟩ := kToken_fail pol total ht
      have h1 := nToken_fail pol total ht
      have h2 := bodyLength_quotes hn'
      have hr : retryReads (nToken pol total) (c :: cs) = 1 + (nToken pol total).reads cs + retryReads (nToken pol total) cs := by
        rw [retryReads, show (nToken pol total).run cs = _ from hk]
      obtain ⟨i1, i2⟩ := ih hn'
      simp only [lexRecover, ht, hr, List.length_cons, List.tail_cons]
      refine ⟨fun t errs rest h => ?_, fun h => ?_⟩
      · obtain ⟨a1, a2, a3⟩ := i1 t errs rest h
        exact ⟨a1.trans (List.suffix_cons _ _), by omega, by omega⟩
      · have := i2 h
        omega

theorem recover_le (pol : Policy) (total n : Nat) (cs : List Char) (hn : cs.length ≤ n) :
    (∀ em t rest, Yields (kRecoverWith pol (kToken pol total)) cs em t rest → rest <:+ cs ∧ rest.length < cs.length ∧
      (nRecoverWith pol (nToken pol total)).reads cs + 51 * rest.length + 16 * (n * quotes rest) ≤ 51 * cs.length + 68 + 16 * (n * quotes cs)) ∧
    (nRecoverWith pol (nToken pol total)).reads cs ≤ 51 * cs.length + 68 + 16 * (n * quotes cs) := by
  cases ht : lexToken cs with
  | some r =>
    obtain ⟨t, errs, rest⟩ := r
    obtain ⟨alt, hk⟩ := kToken_ok pol total ht
    have h1 := nToken_ok pol total ht
    obtain ⟨s1, s2⟩ := lexToken_suffix ht
    rw [nRecoverWith_ok pol ⟨alt, hk⟩]
    have := Nat.mul_le_mul_left n (quotes_suffix s1)
    refine ⟨?_, by omega⟩
    rintro em' t' rest' ⟨alt', h⟩
    simp only [kRecoverWith, hk] at h
    cases h
    exact ⟨s1, s2, by omega⟩
  | none =>
    obtain ⟨em, hk⟩ := kToken_fail pol total ht
    have h1 := nToken_fail pol total ht
    have h2 := bodyLength_quotes hn
    obtain ⟨r1, r2⟩ := retry_le pol total n cs hn
    obtain ⟨k1, k2⟩ := kRetry_spec pol total em (tokenError cs) cs
    rw [nRecoverWith_error pol ⟨em, hk⟩]
    cases hl : lexRecover cs with
    | some r =>
      obtain ⟨t, errs, rest⟩ := r
      obtain ⟨a1, a2, a3⟩ := r1 t errs rest hl
      refine ⟨?_, by omega⟩
      rintro em' t' rest' ⟨alt', h⟩
      obtain ⟨alt, k⟩ := k1 _ _ _ hl
      simp only [kRecoverWith, hk, k] at h
      cases h
      exact ⟨a1, a2, by omega⟩
    | none =>
      have := r2 hl
      refine ⟨?_, by omega⟩
      rintro em' t' rest' ⟨alt', h⟩
      obtain ⟨alt, k⟩ := k2 hl
      simp only [kRecoverWith, hk, k] at h
      cases h

/-! ## Padding -/

theorem nSpaces_le (cs : List Char) : nSpaces.reads cs + (skipSpaces cs).length ≤ cs.length + 1 := by
  obtain ⟨s, hs⟩ := kSpaces_spec cs
  have := nRepeated_const (p := nOneOf c!" \t") (b := 1) (fun _ => le_rfl) (C84_progress chumskyPolicy 0).2.2.2.1 hs
  change nSpaces.reads cs ≤ _ at this
  have : (skipSpaces cs).length ≤ cs.length := (List.dropWhile_suffix _).length_le
  omega

theorem nComment_le (cs : List Char) :
    (∀ rest, lexComment cs = some rest → nComment.reads cs + rest.length ≤ cs.length + 3) ∧
    (lexComment cs = none → nComment.reads cs + (skipSpaces cs).length ≤ cs.length + 3) := by
  obtain ⟨s, hs⟩ := kSpaces_spec cs
  have h1 := nSpaces_le cs
  have e1 : nComment.reads cs = nSpaces.reads cs + readsAfter (nSpaces.run cs) (nIgnoreThen (nJust c!"//") (nRepeated (nFilter fun c => c != '\n'))).reads +
      readsAfter ((nIgnoreThen nSpaces (nIgnoreThen (nJust c!"//") (nRepeated (nFilter fun c => c != '\n')))).run cs) nSpaces.reads := rfl
  rw [readsAfter_ok (p := nSpaces.run) hs] at e1
  have e2 : (nIgnoreThen (nJust c!"//") (nRepeated (nFilter fun c => c != '\n'))).reads (skipSpaces cs) =
      justReads c!"//" (skipSpaces cs) + readsAfter ((nJust c!"//").run (skipSpaces cs)) (nRepeated (nFilter fun c => c != '\n')).reads := rfl
  have hj := kJust_eq c!"//" (skipSpaces cs)
  have h2 : justReads c!"//" (skipSpaces cs) ≤ 2 := justReads_le _ _
  cases h : lexJust c!"//" (skipSpaces cs) with
  | some r =>
    have hcs := (lexJust_iff _ _ _).mp h
    rw [h] at hj
    simp only at hj
    have hlen : (skipSpaces cs).length = r.length + 2 := by rw [hcs]; simp
    have hy : Yields (kIgnoreThen (kJust c!"//") (kRepeated (kFilter fun c => c != '\n'))) (skipSpaces cs) [] (r.takeWhile fun c => c != '\n') (r.dropWhile fun c => c != '\n') := by
      have := yields_map Prod.snd (yields_then (⟨none, hj⟩ : Yields (kJust c!"//") (skipSpaces cs) [] c!"//" r) (yields_filter (fun c => c != '\n') r))
      exact this
    have hy2 := yields_map Prod.snd (yields_then hs hy)
    have hl : lexComment cs = some (skipSpaces (r.dropWhile fun c => c != '\n')) := by
      unfold lexComment
      rw [hcs]
      rfl
    have e3 : readsAfter ((nJust c!"//").run (skipSpaces cs)) (nRepeated (nFilter fun c => c != '\n')).reads = (nRepeated (nFilter fun c => c != '\n')).reads r := by
      rw [show (nJust c!"//").run (skipSpaces cs) = _ from hj]
      rfl
    have h3 := nRepeated_const (p := nFilter fun c => c != '\n') (b := 1) (fun _ => le_rfl) (C84_progress chumskyPolicy 0).2.2.2.2.1 (yields_filter (fun c => c != '\n') r)
    have h4 := (List.dropWhile_suffix (fun c : Char => c != '\n') (l := r)).length_le
    have h5 := nSpaces_le (r.dropWhile fun c => c != '\n')
    rw [e2, e3, readsAfter_ok (p := (nIgnoreThen nSpaces (nIgnoreThen (nJust c!"//") (nRepeated (nFilter fun c => c != '\n')))).run) hy2] at e1
    rw [hl]
    refine ⟨?_, by simp⟩
    intro rest hr
    cases hr
    omega
  | none =>
    rw [h] at hj
    simp only at hj
    have e3 : readsAfter ((nJust c!"//").run (skipSpaces cs)) (nRepeated (nFilter fun c => c != '\n')).reads = 0 := by
      rw [show (nJust c!"//").run (skipSpaces cs) = _ from hj]
      rfl
    obtain ⟨e, hf⟩ := fails_then_right hs (fails_map Prod.snd (fails_then (kRepeated (kFilter fun c => c != '\n')) ⟨[], hj⟩))
    rw [e2, e3, readsAfter_error (p := (nIgnoreThen nSpaces (nIgnoreThen (nJust c!"//") (nRepeated (nFilter fun c => c != '\n')))).run) (fails_map Prod.snd hf)] at e1
    refine ⟨?_, fun _ => by omega⟩
    intro rest hr
    unfold lexComment at hr
    split at hr
    · rename_i heq
      rw [heq] at h
      simp [lexJust] at h
    · cases hr

theorem comments_le (fuel m n : Nat) (cs : List Char) (hf : cs.length < fuel) (hm : cs.length ≤ m) :
    (skipComments m cs).length ≤ cs.length ∧
    repeatedReads nComment none fuel n cs + 3 * (skipComments m cs).length + (skipSpaces (skipComments m cs)).length ≤ 4 * cs.length + 3 := by
  induction fuel generalizing m n cs with
  | zero => omega
  | succ fuel ih =>
    obtain ⟨h1, h2⟩ := kComment_spec cs
    obtain ⟨g1, g2⟩ := nComment_le cs
    rw [repeatedReads, if_neg (by simp)]
    cases h : lexComment cs with
    | none =>
      obtain ⟨e, h2⟩ := h2 h
      have : skipComments m cs = cs := by
        cases m with
        | zero => rfl
        | succ m => simp [skipComments, h]
      rw [this, readsAfter_error (p := nComment.run) h2]
      have := g2 h
      omega
    | some rest =>
      obtain ⟨⟨s, hs⟩, hlt⟩ := h1 rest h
      cases m with
      | zero => omega
      | succ m =>
        obtain ⟨i1, i2⟩ := ih m (n + 1) rest (by omega) (by omega)
        have := g1 rest h
        rw [readsAfter_ok (p := nComment.run) hs]
        simp only [skipComments, h]
        omega

theorem nComments_le (cs : List Char) : (skipComments cs.length cs).length ≤ cs.length ∧
    (nRepeated nComment).reads cs + 3 * (skipComments cs.length cs).length + (skipSpaces (skipComments cs.length cs)).length ≤ 4 * cs.length + 3 :=
  comments_le _ _ _ _ (by omega) le_rfl

/-! ## The tokenizer -/

theorem nPaddedBy_reads {α β : Type} (p : Counted α) (q : Counted β) {cs cs' : List Char} {em x} (h : Yields q.run cs em x cs') :
    (nPaddedBy p q).reads cs = q.reads cs + p.reads cs' + readsAfter (kIgnoreThen q.run p.run cs) q.reads := by
  show q.reads cs + readsAfter (q.run cs) p.reads + _ = _
  rw [readsAfter_ok h]
  rfl

/-- Two paddings around a parser that succeeds. -/
theorem padded_ok {α β γ : Type} (p : Counted α) (q : Counted β) (s : Counted γ) {cs c1 c2 r r1 : List Char} {em x y a z}
    (h1 : Yields s.run cs [] x c1) (h2 : Yields q.run c1 [] y c2) (h3 : Yields p.run c2 em a r) (h4 : Yields q.run r [] z r1) :
    (nPaddedBy (nPaddedBy p q) s).reads cs = s.reads cs + (q.reads c1 + p.reads c2 + q.reads r) + s.reads r1 := by
  have hy2 := yields_map Prod.snd (yields_then h2 h3)
  have hy3 := yields_map Prod.fst (yields_then hy2 h4)
  have hy4 := yields_map Prod.snd (yields_then h1 hy3)
  rw [nPaddedBy_reads _ _ h1, nPaddedBy_reads _ _ h2, readsAfter_ok (p := kIgnoreThen q.run p.run) hy2,
    readsAfter_ok (p := kIgnoreThen s.run (nPaddedBy p q).run) hy4]

/-- Two paddings around a parser that fails. -/
theorem padded_error {α β γ : Type} (p : Counted α) (q : Counted β) (s : Counted γ) {cs c1 c2 : List Char} {x y e}
    (h1 : Yields s.run cs [] x c1) (h2 : Yields q.run c1 [] y c2) (h3 : FailsAt p.run c2 e) :
    (nPaddedBy (nPaddedBy p q) s).reads cs = s.reads cs + (q.reads c1 + p.reads c2) := by
  obtain ⟨e', hf2⟩ := fails_then_right h2 h3
  have hf3 := fails_map Prod.snd hf2
  obtain ⟨e'', hf4⟩ := fails_then_right h1 (fails_map Prod.fst (fails_then q.run hf3))
  have hf5 := fails_map Prod.snd hf4
  rw [nPaddedBy_reads _ _ h1, nPaddedBy_reads _ _ h2, readsAfter_error (p := kIgnoreThen q.run p.run) hf3,
    readsAfter_error (p := kIgnoreThen s.run (nPaddedBy p q).run) hf5]
  omega

theorem nSpaces_run : nSpaces.run = kSpaces := rfl

theorem nComments_run : (nRepeated nComment).run = kRepeated kComment := rfl

theorem nToken_run (pol : Policy) (total : Nat) : (nToken pol total).run = kToken pol total := rfl

theorem nStep_run (pol : Policy) (total : Nat) : (nStep pol total).run = kStep pol total := by
  show kPaddedBy (kPaddedBy (kMapWithSpan total Prod.mk (kRecoverWith pol (nToken pol total).run)) (nRepeated nComment).run) nSpaces.run = _
  rw [nSpaces_run, nComments_run, nToken_run]
  rfl

theorem nSpanned_run (pol : Policy) (total : Nat) : (nMapWithSpan total Prod.mk (nRecoverWith pol (nToken pol total))).run =
    kMapWithSpan total Prod.mk (kRecoverWith pol (kToken pol total)) := by
  show kMapWithSpan total Prod.mk (kRecoverWith pol (nToken pol total).run) = _
  rw [nToken_run]

theorem nSpanned_reads (pol : Policy) (total : Nat) (cs : List Char) : (nMapWithSpan total Prod.mk (nRecoverWith pol (nToken pol total))).reads cs =
    (nRecoverWith pol (nToken pol total)).reads cs := rfl

theorem nStep_le (pol : Policy) (total n : Nat) (cs : List Char) (hn : cs.length ≤ n) :
    (∀ t errs rest, lexStep total cs = some (t, errs, rest) →
      (nStep pol total).reads cs + 127 * rest.length + 16 * (n * quotes rest) ≤ 127 * cs.length + 16 * (n * quotes cs)) ∧
    (lexStep total cs = none → (nStep pol total).reads cs ≤ 127 * cs.length + 76 + 16 * (n * quotes cs)) := by
  obtain ⟨s, hs⟩ := kSpaces_spec cs
  obtain ⟨ss, hss⟩ := kComments_spec (skipSpaces cs)
  have hsp : (skipSpaces cs).length ≤ cs.length := (List.dropWhile_suffix _).length_le
  have hbs : skipBefore cs <:+ cs := by
    rw [skipBefore_eq]
    obtain ⟨g, hg, -⟩ := strip_spec cs
    exact ⟨g, hg.symm⟩
  have hbl : (skipBefore cs).length ≤ (skipSpaces cs).length := (nComments_le (skipSpaces cs)).1
  have hb1 := nSpaces_le cs
  have hb2 : (nRepeated nComment).reads (skipSpaces cs) + 3 * (skipBefore cs).length + (skipSpaces (skipBefore cs)).length ≤ 4 * (skipSpaces cs).length + 3 :=
    (nComments_le (skipSpaces cs)).2
  have hb3 : skipSpaces (skipBefore cs) = skipBefore cs := by
    rw [skipBefore_eq]
    exact skipSpaces_stop (strip_spec cs).choose_spec.2.2.1
  rw [hb3] at hb2
  obtain ⟨r1, r2⟩ := recover_le pol total n (skipBefore cs) (by omega)
  have hq := Nat.mul_le_mul_left n (quotes_suffix hbs)
  have hss : Yields (kRepeated kComment) (skipSpaces cs) [] ss (skipBefore cs) := hss
  obtain ⟨p1, p2⟩ := kStep_spec pol total cs
  cases hrun : kRecoverWith pol (kToken pol total) (skipBefore cs) with
  | mk em r =>
    cases r with
    | ok r =>
      obtain ⟨t, alt, rest⟩ := r
      obtain ⟨a1, a2, a3⟩ := r1 em t rest ⟨alt, hrun⟩
      have hy : Yields (kMapWithSpan total Prod.mk (kRecoverWith pol (kToken pol total))) (skipBefore cs) em (t, spanSince total (skipBefore cs) rest) rest := ⟨alt, by
        unfold kMapWithSpan
        rw [hrun]⟩
      obtain ⟨ss', hss'⟩ := kComments_spec rest
      obtain ⟨c1, c2⟩ := nComments_le rest
      have c3 := nSpaces_le (skipComments rest.length rest)
      have c4 : (skipSpaces (skipComments rest.length rest)).length ≤ (skipComments rest.length rest).length := (List.dropWhile_suffix _).length_le
      have e1 : (nStep pol total).reads cs = _ := padded_ok _ _ _ (nSpaces_run ▸ hs) (nComments_run ▸ hss) (nSpanned_run pol total ▸ hy) (nComments_run ▸ hss')
      rw [nSpanned_reads] at e1
      have hl : ∀ t' errs' rest', lexStep total cs = some (t', errs', rest') → rest' = skipAfter rest := by
        intro t' errs' rest' h
        obtain ⟨alt', k⟩ := p1 _ _ _ h
        obtain ⟨s', hs'⟩ := kSpaces_spec (skipComments rest.length rest)
        obtain ⟨alt'', k'⟩ := yields_padded hs (yields_padded hss hy hss') hs'
        rw [show kStep pol total cs = _ from k'] at k
        cases k
        rfl
      have hsa : skipAfter rest <:+ rest := by
        rw [skipAfter_eq]
        obtain ⟨g, hg, -⟩ := strip_spec rest
        exact ⟨g, hg.symm⟩
      have hq2 := Nat.mul_le_mul_left n (quotes_suffix hsa)
      have hsl : (skipAfter rest).length = (skipSpaces (skipComments rest.length rest)).length := rfl
      constructor
      · intro t' errs' rest' h
        rw [hl _ _ _ h]
        omega
      · intro h
        omega
    | error e =>
      have hf : FailsAt (kMapWithSpan total Prod.mk (kRecoverWith pol (kToken pol total))) (skipBefore cs) e := ⟨em, by
        unfold kMapWithSpan
        rw [hrun]⟩
      have e1 : (nStep pol total).reads cs = _ := padded_error _ _ _ (nSpaces_run ▸ hs) (nComments_run ▸ hss) (nSpanned_run pol total ▸ hf)
      rw [nSpanned_reads] at e1
      constructor
      · intro t' errs' rest' h
        obtain ⟨alt', k⟩ := p1 _ _ _ h
        obtain ⟨e', k'⟩ := fails_padded hss hf
        obtain ⟨e'', em', k''⟩ := fails_padded hs k'
        rw [show kStep pol total cs = _ from k''] at k
        cases k
      · intro h
        omega

theorem tokenizer_le (pol : Policy) (total n fuel k : Nat) (cs : List Char) (hn : cs.length ≤ n) :
    repeatedReads (nStep pol total) none fuel k cs ≤ 127 * cs.length + 76 + 16 * (n * quotes cs) := by
  induction fuel generalizing k cs with
  | zero => simp [repeatedReads]
  | succ fuel ih =>
    rw [repeatedReads, if_neg (by simp)]
    obtain ⟨h1, h2⟩ := nStep_le pol total n cs hn
    cases h : lexStep total cs with
    | none =>
      obtain ⟨e, he⟩ := (kStep_spec pol total cs).2 h
      rw [readsAfter_error (p := (nStep pol total).run) (nStep_run pol total ▸ he)]
      exact h2 h
    | some r =>
      obtain ⟨t, errs, rest⟩ := r
      have hy := (kStep_spec pol total cs).1 _ _ _ h
      rw [← nStep_run] at hy
      rw [readsAfter_ok hy]
      have := h1 _ _ _ h
      have hs := (lexStep_suffix h).2
      have := ih (k + 1) rest (by omega)
      omega

open Spec

/-! ## Sources that can be read -/

theorem nStep_token (pol : Policy) (total : Nat) {cs rest : List Char} {t : Token} {errs : List LexError} (ht : lexToken (strip cs) = some (t, errs, rest)) :
    (nStep pol total).reads cs + 127 * (strip rest).length ≤ 127 * cs.length := by
  obtain ⟨s, hs⟩ := kSpaces_spec cs
  obtain ⟨ss, hss⟩ := kComments_spec (skipSpaces cs)
  have hsp : (skipSpaces cs).length ≤ cs.length := (List.dropWhile_suffix _).length_le
  have hbl : (skipBefore cs).length ≤ (skipSpaces cs).length := (nComments_le (skipSpaces cs)).1
  have hb1 := nSpaces_le cs
  have hb2 : (nRepeated nComment).reads (skipSpaces cs) + 3 * (skipBefore cs).length + (skipSpaces (skipBefore cs)).length ≤ 4 * (skipSpaces cs).length + 3 :=
    (nComments_le (skipSpaces cs)).2
  have hb3 : skipSpaces (skipBefore cs) = skipBefore cs := by
    rw [skipBefore_eq]
    exact skipSpaces_stop (strip_spec cs).choose_spec.2.2.1
  rw [hb3] at hb2
  have hss : Yields (kRepeated kComment) (skipSpaces cs) [] ss (skipBefore cs) := hss
  rw [skipBefore_eq] at hss hb2 hbl
  have hk := kToken_ok pol total ht
  have hy0 : Yields (kRecoverWith pol (kToken pol total)) (strip cs) (tokenEmitted total (strip cs)) t rest := by
    obtain ⟨alt, hk⟩ := hk
    exact ⟨alt, by unfold kRecoverWith; rw [hk]⟩
  have hy : Yields (kMapWithSpan total Prod.mk (kRecoverWith pol (kToken pol total))) (strip cs) (tokenEmitted total (strip cs))
      (t, spanSince total (strip cs) rest) rest := by
    obtain ⟨alt, hrun⟩ := hy0
    exact ⟨alt, by
        unfold kMapWithSpan
        rw [hrun]⟩
  obtain ⟨ss', hss'⟩ := kComments_spec rest
  obtain ⟨c1, c2⟩ := nComments_le rest
  have c3 := nSpaces_le (skipComments rest.length rest)
  have c4 : (skipSpaces (skipComments rest.length rest)).length ≤ (skipComments rest.length rest).length := (List.dropWhile_suffix _).length_le
  have e1 : (nStep pol total).reads cs = _ := padded_ok _ _ _ (nSpaces_run ▸ hs) (nComments_run ▸ hss) (nSpanned_run pol total ▸ hy) (nComments_run ▸ hss')
  rw [nSpanned_reads, nRecoverWith_ok pol (p := nToken pol total) (nToken_run pol total ▸ hk)] at e1
  have h1 := nToken_ok pol total ht
  have h2 := (lexToken_suffix ht).2
  have hsl : (strip rest).length = (skipSpaces (skipComments rest.length rest)).length := by
    rw [← skipAfter_eq]
    rfl
  omega

theorem laidOut_le (pol : Policy) (total n : Nat) {ts : List Token} {v r : Str} (h : LaidOut ts v r) (hr : NoTokenIn r) (fuel k : Nat) (cs : List Char)
    (hn : cs.length ≤ n) (hc : cs <:+ v ++ r) (hs : strip cs = strip (v ++ r)) :
    repeatedReads (nStep pol total) none fuel k cs ≤ 127 * cs.length + 76 + 16 * (n * quotes r) := by
  induction h generalizing fuel k cs with
  | nil =>
    rename_i r
    have := tokenizer_le pol total n fuel k cs hn
    have hq := Nat.mul_le_mul_left n (quotes_suffix (a := cs) (b := r) hc)
    have : repeatedReads (nStep pol total) none fuel k cs ≤ 127 * cs.length + 76 + 16 * (n * quotes cs) := this
    omega
  | cons hg hw h ih =>
    rename_i t ts g w v r
    cases fuel with
    | zero => simp [repeatedReads]
    | succ fuel =>
      have e : g ++ (w ++ v) ++ r = g ++ (w ++ (v ++ r)) := by simp
      rw [e, gap_strip hg (lexeme_tight hw.1 _)] at hs
      have ht : lexToken (strip cs) = some (t, [], v ++ r) := by
        rw [hs]
        exact (lexToken_iff _ _ _ _).mpr ⟨w, 0, rfl, hw, rfl⟩
      have hstep : ∃ x, lexStep total cs = some (x, [], strip (v ++ r)) := by
        unfold lexStep
        simp only [skipBefore_eq, skipAfter_eq, ht]
        exact ⟨_, rfl⟩
      obtain ⟨x, hx⟩ := hstep
      have hy := (kStep_spec pol total cs).1 _ _ _ hx
      rw [← nStep_run] at hy
      rw [repeatedReads, if_neg (by simp), readsAfter_ok hy]
      have h1 := nStep_token pol total ht
      have h2 := (lexStep_suffix hx).2
      have := ih hr fuel (k + 1) (strip (v ++ r)) (by omega) (by
        obtain ⟨g', e', -⟩ := strip_spec (v ++ r)
        exact ⟨g', e'.symm⟩) (strip_strip _)
      omega

/-! ## A source that takes long -/

/-- Back quotes, all of them escaped. -/
def escapedQuotes : Nat → Str
  | 0 => []
  | n + 1 => '\\' :: '`' :: escapedQuotes n

/-- A quoted name that does not end. -/
def endless (n : Nat) : Str := '`' :: escapedQuotes n

theorem escapedQuotes_length (n : Nat) : (escapedQuotes n).length = 2 * n := by
  induction n with
  | zero => rfl
  | succ n ih => simp only [escapedQuotes, List.length_cons, ih]; omega

theorem lexQuotedBody_escapedQuotes (n fuel : Nat) (h : n ≤ fuel) : (lexQuotedBody fuel (escapedQuotes n)).2.2 = [] := by
  induction n generalizing fuel with
  | zero => cases fuel <;> rfl
  | succ n ih =>
    cases fuel with
    | zero => omega
    | succ fuel => exact ih fuel (by omega)

theorem lexToken_endless (n : Nat) : lexToken (endless n) = none := by
  have : lexQuotedIdent (endless n) = none := by
    unfold endless lexQuotedIdent
    have := lexQuotedBody_escapedQuotes n (escapedQuotes n).length (by rw [escapedQuotes_length]; omega)
    cases hb : lexQuotedBody (escapedQuotes n).length (escapedQuotes n) with
    | mk a b =>
      obtain ⟨b, c⟩ := b
      rw [hb] at this
      subst this
      simp only [hb]
  unfold lexToken
  rw [this]
  rfl

theorem lexToken_backslash (cs : List Char) : lexToken ('\\' :: cs) = none := rfl

theorem lexToken_nil : lexToken [] = none := rfl

theorem quotedReads_le (pol : Policy) (total n fuel k : Nat) (h : n ≤ fuel) : n ≤ repeatedReads (nQuotedChar pol total) none fuel k (escapedQuotes n) := by
  induction n generalizing fuel k with
  | zero => exact Nat.zero_le _
  | succ n ih =>
    cases fuel with
    | zero => omega
    | succ fuel =>
      have hl : lexQuotedChar (escapedQuotes (n + 1)) = some ('`', [], escapedQuotes n) := rfl
      obtain ⟨⟨alt, hk, -⟩, -⟩ := kQuotedChar_ok pol total hl
      have hy : Yields (nQuotedChar pol total).run (escapedQuotes (n + 1)) _ '`' (escapedQuotes n) := ⟨alt, hk⟩
      rw [repeatedReads, if_neg (by simp), readsAfter_ok hy]
      have := ih fuel (k + 1) (by omega)
      have h1 : 1 ≤ (nQuotedChar pol total).reads (escapedQuotes (n + 1)) := Nat.le_add_right _ _
      omega

theorem le_nOr_left {α : Type} (pol : Policy) (p q : Counted α) (cs : List Char) : p.reads cs ≤ (nOr pol p q).reads cs := Nat.le_add_right _ _

theorem le_nToken (pol : Policy) (total n : Nat) : n ≤ (nToken pol total).reads (endless n) := by
  refine le_trans ?_ (le_nOr_left pol _ _ _)
  refine le_trans ?_ (le_nOr_left pol _ _ _)
  have f1 := (kEdge_spec (endless n)).2 rfl
  obtain ⟨e2, f2, -⟩ := (kKeyword_spec pol (endless n)).2 rfl
  have f3 := (kIdent_spec (endless n)).2 rfl
  have f : FailsAt (nOr pol (nOr pol nEdge (nKeyword pol)) nIdent).run (endless n) _ := fails_or pol (fails_or pol f1 f2) f3
  rw [le_nOr pol f]
  refine le_trans ?_ (Nat.le_add_left _ _)
  have hj : Yields (nJust c!"`").run (endless n) [] c!"`" (escapedQuotes n) := ⟨none, by
    show kJust c!"`" (endless n) = _
    rw [kJust_eq]
    rfl⟩
  have e1 : (nIgnoreThen (nJust c!"`") (nRepeated (nQuotedChar pol total))).reads (endless n) =
      (nJust c!"`").reads (endless n) + (nRepeated (nQuotedChar pol total)).reads (escapedQuotes n) := by
    show (nJust c!"`").reads (endless n) + readsAfter ((nJust c!"`").run (endless n)) (nRepeated (nQuotedChar pol total)).reads = _
    rw [readsAfter_ok hj]
  show n ≤ (nIgnoreThen (nJust c!"`") (nRepeated (nQuotedChar pol total))).reads (endless n) + _
  have h2 : n ≤ (nRepeated (nQuotedChar pol total)).reads (escapedQuotes n) := quotedReads_le pol total n _ 0 (by rw [escapedQuotes_length]; omega)
  rw [e1]
  omega

theorem retryReads_fail (pol : Policy) (total : Nat) (c : Char) {cs : List Char} (h : lexToken cs = none) :
    retryReads (nToken pol total) (c :: cs) = 1 + (nToken pol total).reads cs + retryReads (nToken pol total) cs := by
  obtain ⟨em', hk⟩ := kToken_fail pol total h
  rw [retryReads, show (nToken pol total).run cs = _ from hk]

theorem le_retry (pol : Policy) (total n : Nat) : n * (n - 1) ≤ 2 * retryReads (nToken pol total) (endless n) := by
  induction n with
  | zero => simp
  | succ n ih =>
    have h1 : retryReads (nToken pol total) (endless (n + 1)) = _ := retryReads_fail pol total '`' (lexToken_backslash (endless n))
    have h2 : retryReads (nToken pol total) (escapedQuotes (n + 1)) =
        1 + (nToken pol total).reads (endless n) + retryReads (nToken pol total) (endless n) := retryReads_fail pol total '\\' (lexToken_endless n)
    have h3 := le_nToken pol total n
    rw [h2] at h1
    have h4 : (n + 1) * (n + 1 - 1) = n * (n - 1) + 2 * n := by
      cases n with
      | zero => rfl
      | succ n => simp only [Nat.add_sub_cancel]; ring
    omega

theorem lexRecover_endless (n : Nat) : lexRecover (endless n) = none := by
  induction n with
  | zero => rfl
  | succ n ih =>
    show lexRecover ('`' :: '\\' :: endless n) = none
    rw [lexRecover, lexToken_backslash, lexRecover, lexToken_endless, ih]

theorem le_charReads (pol : Policy) (n : Nat) : n * (n + 1) ≤ 2 * charReads pol (endless n) := by
  have hs := kSpaces_spec (endless n)
  obtain ⟨s, hs⟩ := hs
  obtain ⟨ss, hss⟩ := kComments_spec (skipSpaces (endless n))
  have e1 : skipSpaces (endless n) = endless n := rfl
  have e2 : skipComments (skipSpaces (endless n)).length (skipSpaces (endless n)) = endless n := by
    show skipBefore (endless n) = _
    rw [skipBefore_eq]
    exact strip_tight ⟨by simp [endless, Blank], by simp [endless]⟩
  rw [e2, e1] at hss
  rw [e1] at hs
  have h1 : (nStep pol (endless n).length).reads (endless n) ≤ charReads pol (endless n) := by
    show _ ≤ repeatedReads _ none _ 0 _
    rw [repeatedReads, if_neg (by simp)]
    exact Nat.le_add_right _ _
  have h2 : (nRecoverWith pol (nToken pol (endless n).length)).reads (endless n) ≤ (nStep pol (endless n).length).reads (endless n) := by
    rw [← nSpanned_reads]
    show _ ≤ (nPaddedBy (nPaddedBy _ _) _).reads _
    rw [nPaddedBy_reads _ _ (nSpaces_run ▸ hs), nPaddedBy_reads _ _ (nComments_run ▸ hss)]
    omega
  have h3 : (nRecoverWith pol (nToken pol (endless n).length)).reads (endless n) = _ :=
    nRecoverWith_error pol (p := nToken pol (endless n).length) (nToken_run pol _ ▸ kToken_fail pol (endless n).length (lexToken_endless n))
  have h4 := le_retry pol (endless n).length n
  have h5 := le_nToken pol (endless n).length n
  have h6 : n * (n + 1) = n * (n - 1) + 2 * n := by
    cases n with
    | zero => rfl
    | succ n => simp only [Nat.add_sub_cancel]; ring
  omega

end Seiren
