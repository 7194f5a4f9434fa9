import Verif.Proofs.Reading
import Mathlib.Tactic.Ring
import Mathlib.Tactic.Tauto
/-! # Everything consumed has been read -/

namespace Seiren
open Spec

section
variable {α β : Type}

/-- What the parser consumes has been read. -/
def Counted.Covers (p : Counted α) : Prop :=
  ∀ cs a alt rest, (p.run cs).2 = .ok (a, alt, rest) → cs.length ≤ rest.length + p.reads cs

/-- If it fails, everything has been read. -/
def Counted.FailCovers (p : Counted α) : Prop := ∀ cs e, (p.run cs).2 = .error e → cs.length ≤ p.reads cs

theorem kJustLoop_covers : ∀ (s : Str) (cs rest : List Char), kJustLoop s cs = .ok rest → cs.length ≤ rest.length + justReads s cs := by
  intro s
  induction s with
  | nil => intro cs rest h; cases h; simp
  | cons p ps ih =>
    intro cs rest h
    cases cs with
    | nil => cases h
    | cons c cs =>
      simp only [kJustLoop] at h
      split at h
      · have := ih cs rest h
        simp only [justReads, List.length_cons]
        rw [if_pos (by assumption)]
        omega
      · cases h

theorem nJust_covers (s : Str) : (nJust s).Covers := by
  intro cs a alt rest h
  refine kJustLoop_covers s cs rest ?_
  simp only [nJust, kJust] at h
  split at h
  · simp only [Except.ok.injEq, Prod.mk.injEq] at h
    rw [← h.2.2]; assumption
  · cases h

theorem nOneOf_covers (ps : Str) : (nOneOf ps).Covers := by
  intro cs a alt rest h
  cases cs with
  | nil => simp
  | cons c cs =>
    simp only [nOneOf, kOneOf] at h ⊢
    split at h
    · simp only [Except.ok.injEq, Prod.mk.injEq] at h
      rw [← h.2.2]; simp
    · cases h

theorem nFilter_covers (f : Char → Bool) : (nFilter f).Covers := by
  intro cs a alt rest h
  cases cs with
  | nil => simp
  | cons c cs =>
    simp only [nFilter, kFilter] at h ⊢
    split at h
    · simp only [Except.ok.injEq, Prod.mk.injEq] at h
      rw [← h.2.2]; simp
    · cases h

theorem kMap_ok {f : α → β} {p : K α} {cs b alt rest} (h : (kMap f p cs).2 = .ok (b, alt, rest)) : ∃ a, (p cs).2 = .ok (a, alt, rest) := by
  unfold kMap at h
  split at h
  · simp only [Except.ok.injEq, Prod.mk.injEq] at h
    rename_i em a alt' rest' hp
    exact ⟨a, by rw [hp, ← h.2.1, ← h.2.2]⟩
  · cases h

theorem kMap_error {f : α → β} {p : K α} {cs e} (h : (kMap f p cs).2 = .error e) : (p cs).2 = .error e := by
  unfold kMap at h
  split at h
  · cases h
  · rename_i hp
    cases h
    rw [hp]

theorem Counted.Covers.map {p : Counted α} (h : p.Covers) (f : α → β) : (nMap f p).Covers := by
  intro cs a alt rest hr
  obtain ⟨b, hb⟩ := kMap_ok hr
  exact h cs b alt rest hb

theorem Counted.FailCovers.map {p : Counted α} (h : p.FailCovers) (f : α → β) : (nMap f p).FailCovers :=
  fun cs e hr => h cs e (kMap_error hr)

theorem Counted.Covers.andThen {p : Counted α} {q : Counted β} (hp : p.Covers) (hq : q.Covers) : (nThen p q).Covers := by
  intro cs a alt rest hr
  simp only [nThen, kThen] at hr ⊢
  split at hr
  · cases hr
  · rename_i em a' alt' rest' h1
    split at hr
    · cases hr
    · rename_i h2
      simp only [Except.ok.injEq, Prod.mk.injEq] at hr
      have e1 := hp cs a' alt' rest' (by rw [h1])
      have e2 := hq rest' _ _ rest (by rw [h2, ← hr.2.2])
      simp only [readsAfter, h1]
      omega

theorem Counted.FailCovers.andThen {p : Counted α} {q : Counted β} (hp : p.Covers) (hp' : p.FailCovers) (hq : q.FailCovers) : (nThen p q).FailCovers := by
  intro cs e hr
  simp only [nThen, kThen] at hr ⊢
  split at hr
  · rename_i h1
    have := hp' cs _ (by rw [h1])
    omega
  · rename_i em a' alt' rest' h1
    split at hr
    · rename_i h2
      have e1 := hp cs a' alt' rest' (by rw [h1])
      have e2 := hq rest' _ (by rw [h2])
      simp only [readsAfter, h1]
      omega
    · cases hr

theorem Counted.Covers.or (pol : Policy) {a b : Counted α} (ha : a.Covers) (hb : b.Covers) : (nOr pol a b).Covers := by
  intro cs x alt rest hr
  simp only [nOr, kOr] at hr ⊢
  have ha' := ha cs
  have hb' := hb cs
  generalize a.run cs = ra at *
  generalize b.run cs = rb at *
  obtain ⟨em, ra⟩ := ra
  obtain ⟨em', rb⟩ := rb
  cases ra with
  | ok r =>
    obtain ⟨x1, alt1, rest1⟩ := r
    have := ha' x1 alt1 rest1 rfl
    cases em with
    | nil =>
      simp only [Except.ok.injEq, Prod.mk.injEq] at hr
      simp only [← hr.2.2]; omega
    | cons y em =>
      cases rb with
      | ok r' =>
        obtain ⟨x2, alt2, rest2⟩ := r'
        have := hb' x2 alt2 rest2 rfl
        simp only at hr
        split at hr <;> simp only [Except.ok.injEq, Prod.mk.injEq] at hr <;> simp only [← hr.2.2] <;> omega
      | error e' =>
        simp only [Except.ok.injEq, Prod.mk.injEq] at hr
        simp only [← hr.2.2]; omega
  | error e =>
    cases rb with
    | ok r' =>
      obtain ⟨x2, alt2, rest2⟩ := r'
      have := hb' x2 alt2 rest2 rfl
      have h3 : rest2 = rest := by
        cases em <;> simp only [Except.ok.injEq, Prod.mk.injEq] at hr <;> exact hr.2.2
      subst h3
      cases em <;> simp only <;> omega
    | error e' => cases em <;> cases hr

theorem choice_covers : ∀ (ps : List (Counted α)) (p : Counted α), p.Covers → (∀ r ∈ ps, r.Covers) → (nChoice p ps).Covers := by
  intro ps
  induction ps with
  | nil => intro p hp _ cs x alt rest hr; exact hp cs x alt rest hr
  | cons r rs ih =>
    intro p hp hrs cs x alt rest hr
    have hi := ih r (hrs r (by simp)) fun r' hr' => hrs r' (by simp [hr'])
    simp only [nChoice, List.map_cons, kChoice, choiceReads] at hr ⊢
    split at hr
    · rename_i h1
      simp only [Except.ok.injEq] at hr
      have := hp cs x alt rest (by rw [h1, hr])
      omega
    · rename_i h1
      split at hr
      · rename_i h2
        simp only [Except.ok.injEq] at hr
        have := hi cs x alt rest (by simp only [nChoice]; rw [h2, hr])
        simp only [nChoice] at this
        simp only [h1]
        omega
      · cases hr

theorem repeated_covers {p : Counted α} (hp : p.Covers) (mn : Nat) (mx : Option Nat) : ∀ (fuel n : Nat) (al : Option CharError) (cs : List Char) x alt rest,
    (kRepeatedLoop p.run mn mx fuel n al cs).2 = .ok (x, alt, rest) → cs.length ≤ rest.length + repeatedReads p mx fuel n cs := by
  intro fuel
  induction fuel with
  | zero =>
    intro n al cs x alt rest h
    simp only [kRepeatedLoop, Except.ok.injEq, Prod.mk.injEq] at h
    rw [h.2.2]; omega
  | succ fuel ih =>
    intro n al cs x alt rest h
    simp only [kRepeatedLoop, repeatedReads] at h ⊢
    split at h
    · simp only [Except.ok.injEq, Prod.mk.injEq] at h
      rw [h.2.2]; omega
    · rename_i hmx
      rw [if_neg hmx]
      split at h
      · rename_i h1
        split at h
        · cases h
        · simp only [Except.ok.injEq, Prod.mk.injEq] at h
          rw [h.2.2]; omega
      · rename_i em a alt' rest' h1
        split at h
        · rename_i h2
          simp only [Except.ok.injEq, Prod.mk.injEq] at h
          have e1 := hp cs a alt' rest' (by rw [h1])
          have e2 := ih _ _ rest' _ _ rest (by rw [h2, ← h.2.2])
          simp only [readsAfter, h1]
          omega
        · cases h

theorem Counted.Covers.repeated {p : Counted α} (hp : p.Covers) : (nRepeated p).Covers :=
  fun cs x alt rest h => repeated_covers hp 0 none _ 0 none cs x alt rest h

theorem Counted.Covers.exactly {p : Counted α} (hp : p.Covers) (n : Nat) : (nExactly p n).Covers :=
  fun cs x alt rest h => repeated_covers hp n (some n) _ 0 none cs x alt rest h

theorem repeated_never_fails (p : K α) : ∀ (fuel n : Nat) (al : Option CharError) (cs : List Char) e, (kRepeatedLoop p 0 none fuel n al cs).2 ≠ .error e := by
  intro fuel
  induction fuel with
  | zero => intro n al cs e h; cases h
  | succ fuel ih =>
    intro n al cs e h
    simp only [kRepeatedLoop, reduceCtorEq, if_false, Nat.not_lt_zero] at h
    split at h
    · cases h
    · split at h
      · cases h
      · rename_i h2
        exact ih _ _ _ _ (by rw [h2])

theorem repeated_failCovers (p : Counted α) : (nRepeated p).FailCovers := fun cs e h => absurd h (repeated_never_fails p.run _ 0 none cs e)

theorem Counted.Covers.tryMap {p : Counted α} (hp : p.Covers) (err : List Char → CharError) (f : α → Option β) : (nTryMap err f p).Covers := by
  intro cs x alt rest h
  simp only [nTryMap, kTryMap] at h ⊢
  split at h
  · rename_i h1
    split at h
    · simp only [Except.ok.injEq, Prod.mk.injEq] at h
      exact hp cs _ _ rest (by rw [h1, h.2.2])
    · cases h
  · cases h

theorem Counted.Covers.mapWithSpan {p : Counted α} (hp : p.Covers) (total : Nat) (f : α → Span → β) : (nMapWithSpan total f p).Covers := by
  intro cs x alt rest h
  simp only [nMapWithSpan, kMapWithSpan] at h ⊢
  split at h
  · rename_i h1
    simp only [Except.ok.injEq, Prod.mk.injEq] at h
    exact hp cs _ _ rest (by rw [h1, h.2.2])
  · cases h

theorem Counted.FailCovers.mapWithSpan {p : Counted α} (hp : p.FailCovers) (total : Nat) (f : α → Span → β) : (nMapWithSpan total f p).FailCovers := by
  intro cs e h
  simp only [nMapWithSpan, kMapWithSpan] at h ⊢
  split at h
  · cases h
  · rename_i h1
    exact hp cs _ (by rw [h1])

theorem Counted.Covers.validate {p : Counted α} (hp : p.Covers) (total : Nat) (f : α → β × List Str) : (nValidate total f p).Covers := by
  intro cs x alt rest h
  simp only [nValidate, kValidate] at h ⊢
  split at h
  · rename_i h1
    simp only [Except.ok.injEq, Prod.mk.injEq] at h
    exact hp cs _ _ rest (by rw [h1, h.2.2])
  · cases h

theorem retry_covers (pol : Policy) {p : Counted α} (hp : p.Covers) (em : List Emitted) (e : CharError) : ∀ (cs : List Char),
    (∀ x alt rest, (kRetry pol p.run em e cs).2 = .ok (x, alt, rest) → cs.length ≤ rest.length + retryReads p cs) ∧
    (∀ e', (kRetry pol p.run em e cs).2 = .error e' → cs.length ≤ retryReads p cs) := by
  intro cs
  induction cs with
  | nil => exact ⟨fun x alt rest h => by simp, fun e' h => by simp⟩
  | cons c cs ih =>
    simp only [kRetry, retryReads, List.length_cons]
    have h1 := hp cs
    generalize p.run cs = r at *
    obtain ⟨em', r⟩ := r
    cases r with
    | ok r =>
      refine ⟨fun x alt rest h => ?_, fun e' h => by cases h⟩
      simp only [Except.ok.injEq] at h
      have := h1 x alt rest (by rw [h])
      omega
    | error e2 =>
      refine ⟨fun x alt rest h => ?_, fun e' h => ?_⟩
      · have := ih.1 x alt rest h
        simp only; omega
      · have := ih.2 e' h
        simp only; omega

theorem Counted.Covers.recover (pol : Policy) {p : Counted α} (hp : p.Covers) : (nRecoverWith pol p).Covers ∧ (nRecoverWith pol p).FailCovers := by
  constructor
  · intro cs x alt rest h
    simp only [nRecoverWith, kRecoverWith] at h ⊢
    split at h
    · rename_i h1
      simp only [Except.ok.injEq] at h
      have := hp cs x alt rest (by rw [h1, h])
      omega
    · rename_i h1
      have := (retry_covers pol hp _ _ cs).1 x alt rest h
      simp only [h1]; omega
  · intro cs e h
    simp only [nRecoverWith, kRecoverWith] at h ⊢
    split at h
    · cases h
    · rename_i h1
      have := (retry_covers pol hp _ _ cs).2 e h
      simp only [h1]; omega

end

theorem nIdentStr_covers : nIdentStr.Covers := ((nFilter_covers _).andThen (nFilter_covers _).repeated).map _

theorem nKeywordStr_covers (pol : Policy) (k : Str) : (nKeywordStr pol k).Covers := nIdentStr_covers.tryMap _ _

theorem nCharTo_covers (c d : Char) : (nCharTo c d).Covers := (nJust_covers _).map _

theorem nEscape_covers (pol : Policy) (total : Nat) : (nEscape pol total).Covers := by
  refine Counted.Covers.map (Counted.Covers.andThen (nCharTo_covers _ _) ?_) _
  repeat' apply Counted.Covers.or
  all_goals first
    | exact nCharTo_covers _ _
    | exact Counted.Covers.map (Counted.Covers.andThen (nCharTo_covers _ _) (((nFilter_covers _).exactly 4).validate _ _)) _

theorem nToken_covers (pol : Policy) (total : Nat) : (nToken pol total).Covers := by
  have hk : (nKeyword pol).Covers := by
    refine choice_covers _ _ ((nKeywordStr_covers pol _).map _) fun r hr => ?_
    simp only [List.mem_cons, List.not_mem_nil, or_false] at hr
    rcases hr with rfl | rfl | rfl | rfl | rfl | rfl <;> exact (nKeywordStr_covers pol _).map _
  have hn : nNewline.Covers := by
    refine choice_covers _ _ ((nJust_covers _).map _) fun r hr => ?_
    simp only [List.mem_cons, List.not_mem_nil, or_false] at hr
    subst hr
    exact (nJust_covers _).map _
  have hq : (nQuotedIdent pol total).Covers :=
    (((((nJust_covers _).andThen (((nFilter_covers _).or pol (nEscape_covers pol total)).repeated)).map _).andThen (nCharTo_covers _ _)).map _).map _
  exact ((((((nJust_covers _).map _).or pol hk).or pol (nIdentStr_covers.map _)).or pol hq).or pol ((nOneOf_covers _).map _)).or pol hn

theorem nStep_covers (pol : Policy) (total : Nat) : (nStep pol total).Covers ∧ (nStep pol total).FailCovers := by
  have hs : nSpaces.Covers := (nOneOf_covers _).repeated
  have hc : nComment.Covers :=
    ((((hs.andThen ((((nJust_covers _).andThen (nFilter_covers _).repeated)).map _)).map _).andThen hs).map _)
  have hr := Counted.Covers.recover pol (nToken_covers pol total)
  have hm := hr.1.mapWithSpan total Prod.mk
  have hm' := hr.2.mapWithSpan total Prod.mk
  have hfs : nSpaces.FailCovers := repeated_failCovers _
  have hfc : (nRepeated nComment).FailCovers := repeated_failCovers _
  have h1 : (nPaddedBy (nMapWithSpan total Prod.mk (nRecoverWith pol (nToken pol total))) (nRepeated nComment)).Covers :=
    (((hc.repeated.andThen hm).map _).andThen hc.repeated).map _
  have h1' : (nPaddedBy (nMapWithSpan total Prod.mk (nRecoverWith pol (nToken pol total))) (nRepeated nComment)).FailCovers :=
    (Counted.FailCovers.andThen ((hc.repeated.andThen hm).map _) ((Counted.FailCovers.andThen hc.repeated hfc hm').map _) hfc).map _
  exact ⟨(((hs.andThen h1).map _).andThen hs).map _,
    (Counted.FailCovers.andThen ((hs.andThen h1).map _) ((Counted.FailCovers.andThen hs hfs h1').map _) hfs).map _⟩

theorem repeated_reads_all {α : Type} {p : Counted α} (hp : p.Covers) (hf : p.FailCovers) (hc : Consumes p.run) : ∀ (fuel n : Nat) (cs : List Char), cs.length < fuel →
    cs.length ≤ repeatedReads p none fuel n cs := by
  intro fuel
  induction fuel with
  | zero => intro n cs h; omega
  | succ fuel ih =>
    intro n cs h
    simp only [repeatedReads, reduceCtorEq, if_false]
    rcases hr : p.run cs with ⟨em, r⟩
    cases r with
    | error e =>
      have := hf cs e (by rw [hr])
      omega
    | ok r =>
      obtain ⟨a, alt, rest⟩ := r
      have h1 := hp cs a alt rest (by rw [hr])
      have h2 := hc cs em a alt rest hr
      have h3 := ih (n + 1) rest (by omega)
      simp only [readsAfter]
      omega

theorem tokenizer_reads_all (pol : Policy) (src : Str) : src.length ≤ charReads pol src := by
  refine repeated_reads_all (nStep_covers pol _).1 (nStep_covers pol _).2 ?_ _ 0 src (by omega)
  have := (C84_progress pol src.length).2.2.2.2.2.2
  rw [nStep_run]
  exact this

/-! ## Words -/

theorem keywordStr_word (pol : Policy) {w : Str} (h : IsWord w) (k : Str) (t : Token) (hk : w ≠ k) :
    (∃ e, FailsAt (nMap (fun _ => t) (nKeywordStr pol k)).run w e) ∧ w.length ≤ (nMap (fun _ => t) (nKeywordStr pol k)).reads w := by
  have hi : lexIdentStr w = some (w, []) := (lexIdentStr_iff _ _ _).mpr ⟨by simp, h, by simp⟩
  have hs := kIdentStr_spec w
  rw [hi] at hs
  obtain ⟨alt, hs⟩ := hs
  constructor
  · exact ⟨_, (kKeywordStr_spec pol k t w).2 (by simp only [lexKeywordStr, hi, if_neg hk])⟩
  · have := nIdentStr_covers w w alt [] (by show (kIdentStr w).2 = _; rw [hs])
    rw [List.length_nil, Nat.zero_add] at this
    exact this

theorem choice_word {w : Str} : ∀ (ps : List (Counted Token)) (p : Counted Token),
    (∀ q ∈ p :: ps, (∃ e, FailsAt q.run w e) ∧ w.length ≤ q.reads w) → (ps.length + 1) * w.length ≤ choiceReads p ps w := by
  intro ps
  induction ps with
  | nil => intro p h; simpa [choiceReads] using (h p (by simp)).2
  | cons r rs ih =>
    intro p h
    obtain ⟨⟨e, em, he⟩, h2⟩ := h p (by simp)
    have := ih r fun q hq => h q (by simp at hq ⊢; tauto)
    simp only [choiceReads, he, List.length_cons]
    have e3 : (rs.length + 1 + 1) * w.length = (rs.length + 1) * w.length + w.length := by ring
    omega

/-- A word that is no keyword is compared with all seven keywords, each time as a whole, before it is read as a name. -/
theorem nToken_word (pol : Policy) (total : Nat) {w : Str} (h : IsWord w) (hk : ∀ t, (w, t) ∉ keywords) : 8 * w.length ≤ (nToken pol total).reads w := by
  have hne : ∀ k t, (k, t) ∈ keywords → w ≠ k := fun k t hm e => hk t (e ▸ hm)
  have hi : lexIdentStr w = some (w, []) := (lexIdentStr_iff _ _ _).mpr ⟨by simp, h, by simp⟩
  refine le_trans ?_ (le_nOr_left pol _ _ _)
  refine le_trans ?_ (le_nOr_left pol _ _ _)
  refine le_trans ?_ (le_nOr_left pol _ _ _)
  have f1 : FailsAt nEdge.run w (justError c!"o--o" w) := by
    refine (kEdge_spec w).2 ?_
    rw [lexEdge]
    cases hj : lexJust c!"o--o" w with
    | none => rfl
    | some r =>
      exfalso
      obtain ⟨c, cs, rfl, hc, hcs⟩ := h
      simp only [lexJust] at hj
      split at hj
      · cases cs with
        | nil => cases hj
        | cons d ds =>
          simp only [lexJust] at hj
          split at hj
          · have := hcs d (by simp)
            rename_i hd
            subst hd
            exact absurd this (by unfold WordChar WordStart; decide)
          · cases hj
      · cases hj
  have hkw : ∀ k t, (k, t) ∈ keywords → (∃ e, FailsAt (nMap (fun _ => t) (nKeywordStr pol k)).run w e) ∧ w.length ≤ (nMap (fun _ => t) (nKeywordStr pol k)).reads w :=
    fun k t hm => keywordStr_word pol h k t (hne k t hm)
  have c7 : 7 * w.length ≤ (nKeyword pol).reads w := by
    refine choice_word [_, _, _, _, _, _] _ ?_
    intro q hq
    simp only [List.mem_cons, List.not_mem_nil, or_false] at hq
    rcases hq with rfl | rfl | rfl | rfl | rfl | rfl | rfl <;> exact hkw _ _ (by simp [keywords])
  have hlk : lexKeyword w = none := by
    have : ∀ k t, (k, t) ∈ keywords → lexKeywordStr k t w = none := fun k t hm => by simp only [lexKeywordStr, hi, if_neg (hne k t hm)]
    simp [lexKeyword, this _ _ (show (c!"erd", Token.erd) ∈ keywords by simp [keywords]), this _ _ (show (c!"int", Token.int) ∈ keywords by simp [keywords]),
      this _ _ (show (c!"uuid", Token.uuid) ∈ keywords by simp [keywords]), this _ _ (show (c!"text", Token.text) ∈ keywords by simp [keywords]),
      this _ _ (show (c!"timestamp", Token.timestamp) ∈ keywords by simp [keywords]), this _ _ (show (c!"PK", Token.pk) ∈ keywords by simp [keywords]),
      this _ _ (show (c!"FK", Token.fk) ∈ keywords by simp [keywords])]
  obtain ⟨e2, f2, -⟩ := (kKeyword_spec pol w).2 hlk
  have e3 := le_nOr pol (q := nKeyword pol) f1
  have f : FailsAt (nOr pol nEdge (nKeyword pol)).run w _ := fails_or pol f1 f2
  rw [le_nOr pol f, e3]
  have hs := kIdentStr_spec w
  rw [hi] at hs
  obtain ⟨alt, hs⟩ := hs
  have c1 : w.length ≤ nIdent.reads w := by
    have := nIdentStr_covers w w alt [] (by show (kIdentStr w).2 = _; rw [hs])
    rw [List.length_nil, Nat.zero_add] at this
    exact this
  omega

theorem step_le_charReads (pol : Policy) {src : Str} (ht : Tight src) (hb : skipSpaces src = src) :
    (nToken pol src.length).reads src ≤ charReads pol src := by
  obtain ⟨s, hs⟩ := kSpaces_spec src
  obtain ⟨ss, hss⟩ := kComments_spec (skipSpaces src)
  have e2 : skipComments (skipSpaces src).length (skipSpaces src) = src := by
    show skipBefore src = _
    rw [skipBefore_eq]
    exact strip_tight ht
  rw [e2, hb] at hss
  rw [hb] at hs
  have h1 : (nStep pol src.length).reads src ≤ charReads pol src := by
    show _ ≤ repeatedReads _ none _ 0 _
    rw [repeatedReads, if_neg (by simp)]
    exact Nat.le_add_right _ _
  have h2 : (nRecoverWith pol (nToken pol src.length)).reads src ≤ (nStep pol src.length).reads src := by
    rw [← nSpanned_reads]
    show _ ≤ (nPaddedBy (nPaddedBy _ _) _).reads _
    rw [nPaddedBy_reads _ _ (nSpaces_run ▸ hs), nPaddedBy_reads _ _ (nComments_run ▸ hss)]
    omega
  have h3 : (nToken pol src.length).reads src ≤ (nRecoverWith pol (nToken pol src.length)).reads src := Nat.le_add_right _ _
  omega

theorem word_reads (pol : Policy) {w : Str} (h : IsWord w) (hk : ∀ t, (w, t) ∉ keywords) : 8 * w.length ≤ charReads pol w := by
  have ht : Tight w := by
    obtain ⟨c, cs, rfl, hc, -⟩ := h
    constructor
    · intro d hd
      obtain rfl : c = d := by simpa using hd
      rintro (rfl | rfl) <;> revert hc <;> unfold WordStart <;> decide
    · intro hp
      have : c = '/' := by
        obtain ⟨z, hz⟩ := hp
        simp at hz
        exact hz.1.symm
      subst this
      revert hc
      unfold WordStart
      decide
  exact le_trans (nToken_word pol w.length h hk) (step_le_charReads pol ht (skipSpaces_stop ht.1))

/-! ## Tokens -/

section
variable {α β : Type}

/-- What the parser consumes has been read. -/
def CountedLP.Covers (p : CountedLP α) : Prop :=
  ∀ ts a alt rest, p.run ts = .ok (a, alt, rest) → ts.length ≤ rest.length + p.reads ts

theorem mJust_covers (t : Token) : (mJust t).Covers := by
  intro ts a alt rest h
  cases ts with
  | nil => simp
  | cons u ts =>
    simp only [mJust, lJust] at h ⊢
    split at h
    · simp only [Except.ok.injEq, Prod.mk.injEq] at h
      rw [← h.2.2]; simp
    · cases h

theorem mIdent_covers : mIdent.Covers := by
  intro ts a alt rest h
  simp only [mIdent] at h ⊢
  unfold lIdent at h
  split at h
  · simp only [Except.ok.injEq, Prod.mk.injEq] at h
    rw [← h.2.2]; simp
  · cases h

theorem CountedLP.Covers.map {p : CountedLP α} (hp : p.Covers) (f : α → β) : (mMap f p).Covers := by
  intro ts a alt rest h
  simp only [mMap, lMap] at h ⊢
  split at h
  · rename_i h1
    simp only [Except.ok.injEq, Prod.mk.injEq] at h
    exact hp ts _ _ rest (by rw [h1, h.2.2])
  · cases h

variable (pol : ChoicePolicy)

theorem CountedLP.Covers.andThen {p : CountedLP α} {q : CountedLP β} (hp : p.Covers) (hq : q.Covers) : (mThen pol p q).Covers := by
  intro ts a alt rest h
  simp only [mThen, gThen] at h ⊢
  split at h
  · cases h
  · rename_i a' alt' rest' h1
    split at h
    · cases h
    · rename_i h2
      simp only [Except.ok.injEq, Prod.mk.injEq] at h
      have e1 := hp ts a' alt' rest' h1
      have e2 := hq rest' _ _ rest (by rw [h2, h.2.2])
      simp only [tokenReadsAfter, h1]
      omega

theorem CountedLP.Covers.choice {p q : CountedLP α} (hp : p.Covers) (hq : q.Covers) : (mChoice pol p q).Covers := by
  intro ts a alt rest h
  simp only [mChoice, gChoice] at h ⊢
  split at h
  · rename_i h1
    have := hp ts a alt rest (by rw [h1, h])
    omega
  · rename_i h1
    split at h
    · rename_i h2
      simp only [Except.ok.injEq, Prod.mk.injEq] at h
      have := hq ts _ _ rest (by rw [h2, h.2.2])
      simp only [h1]
      omega
    · cases h

theorem CountedLP.Covers.orNot {p : CountedLP α} (hp : p.Covers) : (mOrNot p).Covers := by
  intro ts a alt rest h
  simp only [mOrNot, lOrNot] at h ⊢
  split at h
  · rename_i h1
    simp only [Except.ok.injEq, Prod.mk.injEq] at h
    exact hp ts _ _ rest (by rw [h1, h.2.2])
  · simp only [Except.ok.injEq, Prod.mk.injEq] at h
    rw [h.2.2]; omega

theorem CountedLP.Covers.repeated {p : CountedLP α} (hp : p.Covers) : (mRepeated pol p).Covers := by
  have key : ∀ (fuel : Nat) (al : Option Located) (ts : List Token),
      ts.length ≤ (gRepeatedLoop pol p.run fuel al ts).2.2.length + tokenRepeatedReads p fuel ts := by
    intro fuel
    induction fuel with
    | zero => intro al ts; simp [gRepeatedLoop]
    | succ fuel ih =>
      intro al ts
      simp only [gRepeatedLoop, tokenRepeatedReads]
      cases h1 : p.run ts with
      | error e => simp
      | ok r =>
        obtain ⟨a, alt, rest⟩ := r
        have e1 := hp ts a alt rest h1
        have e2 := ih (mergeAltsWith pol al alt) rest
        simp only [tokenReadsAfter]
        generalize gRepeatedLoop pol p.run fuel (mergeAltsWith pol al alt) rest = R at *
        obtain ⟨as, alt'', rest'⟩ := R
        simp only at e2 ⊢
        omega
  intro ts a alt rest h
  simp only [mRepeated, gRepeated, Except.ok.injEq] at h ⊢
  have := key (ts.length + 1) none ts
  rw [h] at this
  exact this

end

section
variable (pol : ChoicePolicy)

theorem CountedLP.Covers.ignoreThen {α β : Type} {p : CountedLP α} {q : CountedLP β} (hp : p.Covers) (hq : q.Covers) : (mIgnoreThen pol p q).Covers :=
  (hp.andThen pol hq).map _

theorem CountedLP.Covers.thenIgnore {α β : Type} {p : CountedLP α} {q : CountedLP β} (hp : p.Covers) (hq : q.Covers) : (mThenIgnore pol p q).Covers :=
  (hp.andThen pol hq).map _

theorem mSep_covers : (mSep pol).Covers := (mJust_covers _).choice pol (mJust_covers _)

theorem CountedLP.Covers.padded {α : Type} {p : CountedLP α} (hp : p.Covers) : (mPadded pol p).Covers :=
  (((mSep_covers pol).repeated pol).ignoreThen pol hp).thenIgnore pol ((mSep_covers pol).repeated pol)

theorem CountedLP.Covers.items {α : Type} {p : CountedLP α} (hp : p.Covers) : (mItems pol p).Covers :=
  ((hp.andThen pol ((((mSep_covers pol).ignoreThen pol ((mSep_covers pol).repeated pol)).ignoreThen pol hp).repeated pol)).map _).orNot

theorem mModule_covers : (mModule pol).Covers := by
  have hty : (mFieldType pol).Covers :=
    ((mJust_covers _).map _).choice pol (((mJust_covers _).map _).choice pol (((mJust_covers _).map _).choice pol ((mJust_covers _).map _)))
  have hkey : (mFieldKey pol).Covers := ((mJust_covers _).map _).choice pol ((mJust_covers _).map _)
  have hent : (mEntity pol).Covers := (mIdent_covers.andThen pol ((mJust_covers _).ignoreThen pol mIdent_covers.orNot)).map _
  have hfield : (mEntityField pol).Covers := ((mIdent_covers.andThen pol hty).andThen pol hkey.orNot).map _
  have hfields : (mEntityFields pol).Covers := ((hfield.items pol).padded pol).map _
  have hpad : (mPad pol).Covers := (mSep_covers pol).repeated pol
  have hdef : (mEntityDefinition pol).Covers :=
    ((((mIdent_covers.thenIgnore pol hpad).thenIgnore pol (mJust_covers _)).andThen pol hfields).thenIgnore pol (mJust_covers _)).map _
  have hrel : (mRelation pol).Covers := (hent.andThen pol (((mJust_covers _).padded pol).ignoreThen pol hent)).map _
  have hentry : (mModuleEntry pol).Covers := (hdef.map _).choice pol (hrel.map _)
  have hentries : (mModuleEntries pol).Covers := (hentry.items pol).map _
  exact ((((((((mJust_covers _).padded pol).ignoreThen pol ((mIdent_covers.padded pol).orNot)).thenIgnore pol (mJust_covers _)).andThen pol
    (hentries.padded pol)).thenIgnore pol (mJust_covers _)).padded pol)).map _

end

end Seiren
