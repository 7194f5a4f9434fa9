import Verif.Proofs.SvgExact
/-! # Reading a text that is cut off -/

namespace Seiren
open Spec

theorem dropWhile_append {p : Char → Bool} {s t : Str} (h : s.dropWhile p ≠ []) :
    (s ++ t).dropWhile p = s.dropWhile p ++ t ∧ (s ++ t).takeWhile p = s.takeWhile p := by
  induction s with
  | nil => exact absurd rfl h
  | cons c s ih =>
    simp only [List.cons_append, List.dropWhile_cons, List.takeWhile_cons] at h ⊢
    split
    next hc => rw [if_pos hc] at h; exact ⟨(ih h).1, by rw [(ih h).2]⟩
    next hc => exact ⟨rfl, rfl⟩

theorem readName_append {s n r t : Str} (h : readName s = some (n, r)) (hr : r ≠ []) : readName (s ++ t) = some (n, r ++ t) := by
  unfold readName at h ⊢
  split at h
  · cases h
  next c m hm =>
    split at h
    next hc =>
      cases h
      obtain ⟨h1, h2⟩ := dropWhile_append (t := t) hr
      rw [h1, h2, hm]
      simp [hc]
    · cases h

theorem readAttrs_append : ∀ (fuel : Nat) {s r t : Str} {as : List (Str × Str)}, readAttrs fuel s = some (as, r) →
    r ≠ [] ∧ ∀ fuel', fuel ≤ fuel' → readAttrs fuel' (s ++ t) = some (as, r ++ t)
  | 0, s, r, t, as, h => by cases h
  | fuel + 1, s, r, t, as, h => by
    rw [readAttrs] at h
    have hne : s.dropWhile isBlank ≠ [] := by
      intro e
      rw [e] at h
      simp only [readName, List.takeWhile_nil] at h
      split at h <;> cases h
    obtain ⟨h1, -⟩ := dropWhile_append (t := t) hne
    suffices H : r ≠ [] ∧ ∀ f, fuel ≤ f → readAttrs (f + 1) (s ++ t) = some (as, r ++ t) by
      refine ⟨H.1, ?_⟩
      intro f hf
      obtain ⟨g, rfl⟩ : ∃ g, f = g + 1 := ⟨f - 1, by omega⟩
      exact H.2 g (by omega)
    simp only [readAttrs, h1]
    revert h
    generalize hr0 : s.dropWhile isBlank = r0 at *
    have hlen : (r0 ++ t).length = (s ++ t).length ↔ r0.length = s.length := by simp
    cases r0 with
    | nil => exact absurd rfl hne
    | cons c r0 =>
      by_cases hc1 : c = '>'
      · subst hc1; rintro ⟨⟩; exact ⟨by simp, fun f hf => rfl⟩
      by_cases hc2 : c = '/'
      · subst hc2; rintro ⟨⟩; exact ⟨by simp, fun f hf => rfl⟩
      simp only [List.cons_append] at hlen ⊢
      intro h
      split at h
      next heq => exact absurd (List.cons.inj heq).1 hc1
      next heq => exact absurd (List.cons.inj heq).1 hc2
      split at h
      · cases h
      next hl =>
      have hl' : ¬ (c :: (r0 ++ t)).length = (s ++ t).length := fun e => hl (hlen.mp e)
      split at h
      · cases h
      next name r1 hn =>
      split at h
      next r2 h2 =>
        split at h
        next quote r3 h3 =>
          split at h
          next hq =>
            split at h
            next x r4 value h4 h5 =>
              obtain ⟨⟨as', r5⟩, h6, h7⟩ := Option.map_eq_some_iff.mp h
              cases h7
              have hr1 : r1 ≠ [] := by rintro rfl; cases h2
              have hr2 : r2 ≠ [] := by rintro rfl; cases h3
              obtain ⟨ih1, ih2⟩ := readAttrs_append fuel (t := t) h6
              refine ⟨ih1, fun f hf => ?_⟩
              have e1 := readName_append (t := t) hn hr1
              have e2 := (dropWhile_append (p := isBlank) (s := r1) (t := t) (by rw [h2]; simp)).1
              have e3 := (dropWhile_append (p := isBlank) (s := r2) (t := t) (by rw [h3]; simp)).1
              obtain ⟨e4, e5⟩ := dropWhile_append (p := (· != quote)) (s := r3) (t := t) (by rw [h4]; simp)
              rw [h2, List.cons_append] at e2
              rw [h3, List.cons_append] at e3
              rw [h4, List.cons_append] at e4
              split
              next heq => exact absurd (List.cons.inj heq).1 hc1
              next heq => exact absurd (List.cons.inj heq).1 hc2
              rw [if_neg hl']
              rw [List.cons_append] at e1
              simp only [e1, e2, e3, if_pos hq, e4, e5, h5, ih2 f hf, Option.map_some]
            · cases h
          · cases h
        · cases h
      · cases h

theorem readTag_append {s n r t : Str} {as : List (Str × Str)} {b : Bool} (h : readTag s = some (n, as, b, r)) :
    readTag (s ++ t) = some (n, as, b, r ++ t) := by
  unfold readTag at h ⊢
  split at h
  · cases h
  next name r1 hn =>
    split at h
    · cases h
    next attrs r2 ha =>
      have hr1 : r1 ≠ [] := by rintro rfl; simp [readAttrs] at ha
      rw [readName_append hn hr1]
      obtain ⟨h1, h2⟩ := readAttrs_append _ (t := t) ha
      simp only [h2 ((r1 ++ t).length + 1) (by simp)]
      split at h
      next hnd =>
        rw [if_pos hnd]
        split at h
        · cases h; rfl
        · cases h; rfl
        · cases h
      · cases h

theorem readClose_append {n s r t : Str} (h : readClose n s = some r) : readClose n (s ++ t) = some (r ++ t) := by
  unfold readClose at h
  split at h
  next s' =>
    split at h
    · cases h
    next m r1 hn =>
      split at h
      next hm =>
        split at h
        next r2 h2 =>
          cases h
          have hr1 : r1 ≠ [] := by rintro rfl; cases h2
          have e2 := (dropWhile_append (p := isBlank) (s := r1) (t := t) (by rw [h2]; simp)).1
          rw [h2, List.cons_append] at e2
          simp only [List.cons_append, readClose, readName_append hn hr1, if_pos hm, e2]
        · cases h
      · cases h
  · cases h

theorem readContent_char {f : Nat} {c : Char} {s : Str} (hc : c ≠ '<') : readContent (f + 1) (c :: s) =
    match decode ((c :: s).takeWhile (· != '<')) with
    | none => none
    | some t => (readContent f ((c :: s).dropWhile (· != '<'))).map fun (xs, r) => (.text t :: xs, r) := by
  rw [readContent]
  · rfl
  · intro _ e; exact absurd e hc
  · exact hc

/-- Content that ends before a closing tag is read in the same way if something follows. -/
theorem readContent_append : ∀ (fuel : Nat) {s r t : Str} {xs : List Xml}, readContent fuel s = some (xs, r) → r ≠ [] →
    ∀ fuel', fuel ≤ fuel' → readContent fuel' (s ++ t) = some (xs, r ++ t)
  | 0, s, r, t, xs, h, _, _, _ => by cases h
  | fuel + 1, s, r, t, xs, h, hr, fuel', hf => by
    obtain ⟨f, rfl⟩ : ∃ g, fuel' = g + 1 := ⟨fuel' - 1, by omega⟩
    have hf : fuel ≤ f := by omega
    cases s with
    | nil => rw [readContent] at h; cases h; exact absurd rfl hr
    | cons c s =>
    by_cases hc : c = '<'
    · subst hc
      by_cases hsl : ∃ u, s = '/' :: u
      · obtain ⟨u, rfl⟩ := hsl
        rw [readContent] at h
        cases h
        simp only [List.cons_append]
        rw [readContent]
      have hs' : ∀ u, s ≠ '/' :: u := fun u e => hsl ⟨u, e⟩
      have hs'' : s ≠ [] → ∀ u, s ++ t ≠ '/' :: u := by
        intro hne u e
        cases s with
        | nil => exact hne rfl
        | cons c s => cases e; exact hs' _ rfl
      rw [readContent_elem hs'] at h
      split at h
      · cases h
      next name attrs r1 ht =>
        obtain ⟨⟨ys, r2⟩, h1, h2⟩ := Option.map_eq_some_iff.mp h
        cases h2
        have hne : s ≠ [] := by rintro rfl; simp [readTag, readName] at ht
        rw [List.cons_append, readContent_elem (hs'' hne), readTag_append ht]
        simp only [readContent_append fuel h1 hr f hf, Option.map_some]
      next name attrs r1 ht =>
        have hne : s ≠ [] := by rintro rfl; simp [readTag, readName] at ht
        split at h
        · cases h
        next inner r2 hin =>
          split at h
          · cases h
          next r3 hcl =>
            obtain ⟨⟨ys, r4⟩, h1, h2⟩ := Option.map_eq_some_iff.mp h
            cases h2
            have hr2 : r2 ≠ [] := by rintro rfl; simp [readClose] at hcl
            rw [List.cons_append, readContent_elem (hs'' hne), readTag_append ht]
            simp only [readContent_append fuel hin hr2 f hf, readClose_append hcl, readContent_append fuel h1 hr f hf, Option.map_some]
    · rw [readContent_char hc] at h
      split at h
      · cases h
      next d hd =>
        obtain ⟨⟨ys, r1⟩, h1, h2⟩ := Option.map_eq_some_iff.mp h
        cases h2
        have hne : (c :: s).dropWhile (· != '<') ≠ [] := by
          intro e
          rw [e] at h1
          cases fuel with
          | zero => cases h1
          | succ f => cases h1; exact hr rfl
        obtain ⟨e1, e2⟩ := dropWhile_append (t := t) hne
        rw [List.cons_append, readContent_char hc, ← List.cons_append, e1, e2, hd]
        simp only [readContent_append fuel h1 hr f hf, Option.map_some]

theorem decode_blank : ∀ {s d : Str}, decode s = some d → d.all isBlank = true → s.all isBlank = true := by
  intro s
  induction s using decode.induct with
  | case1 => intro d h _; rfl
  | case2 s ih | case3 s ih | case4 s ih | case5 s ih | case6 s ih =>
    intro d h hd
    simp only [decode] at h
    obtain ⟨e, he, rfl⟩ := Option.map_eq_some_iff.mp h
    simp only [List.all_cons, Bool.and_eq_true] at hd
    exact absurd hd.1 (by decide)
  | case7 s => intro d h; simp [decode] at h
  | case8 s ih =>
    intro d h hd
    simp only [decode] at h
    obtain ⟨e, he, rfl⟩ := Option.map_eq_some_iff.mp h
    simp only [List.all_cons, Bool.and_eq_true] at hd ⊢
    exact ⟨by decide, by decide, ih he hd.2⟩
  | case9 s hs ih =>
    intro d h hd
    rw [decode] at h
    · obtain ⟨e, he, rfl⟩ := Option.map_eq_some_iff.mp h
      simp only [List.all_cons, Bool.and_eq_true] at hd ⊢
      exact ⟨by decide, ih he hd.2⟩
    · exact hs
  | case10 c s _ _ _ _ _ _ _ _ hc => 
    intro d h
    rw [decode] at h <;> first | assumption | skip
    rw [if_pos hc] at h
    cases h
  | case11 c s _ _ _ _ _ _ _ _ hc ih =>
    intro d h hd
    rw [decode] at h <;> first | assumption | skip
    rw [if_neg hc] at h
    obtain ⟨e, he, rfl⟩ := Option.map_eq_some_iff.mp h
    simp only [List.all_cons, Bool.and_eq_true] at hd ⊢
    exact ⟨hd.1, ih he hd.2⟩

/-- Content without elements, read up to the end, and whose character data are white space: the text is white space. -/
theorem readContent_blank : ∀ (fuel : Nat) {s : Str} {xs : List Xml}, readContent fuel s = some (xs, []) → elements xs = [] →
    (characters xs).all isBlank = true → s.all isBlank = true
  | 0, s, xs, h, _, _ => by cases h
  | fuel + 1, s, xs, h, he, hb => by
    cases s with
    | nil => rfl
    | cons c s =>
    by_cases hc : c = '<'
    · subst hc
      exfalso
      by_cases hsl : ∃ u, s = '/' :: u
      · obtain ⟨u, rfl⟩ := hsl
        rw [readContent] at h
        cases h
      rw [readContent_elem (fun u e => hsl ⟨u, e⟩)] at h
      split at h
      · cases h
      · obtain ⟨⟨ys, r2⟩, h1, h2⟩ := Option.map_eq_some_iff.mp h
        cases h2
        cases he
      · split at h
        · cases h
        · split at h
          · cases h
          · obtain ⟨⟨ys, r4⟩, h1, h2⟩ := Option.map_eq_some_iff.mp h
            cases h2
            cases he
    · rw [readContent_char hc] at h
      split at h
      · cases h
      next d hd =>
        obtain ⟨⟨ys, r1⟩, h1, h2⟩ := Option.map_eq_some_iff.mp h
        cases h2
        simp only [characters, List.all_append, Bool.and_eq_true] at hb
        have e := List.takeWhile_append_dropWhile (p := (· != '<')) (l := c :: s)
        rw [← e, List.all_append, Bool.and_eq_true]
        exact ⟨decode_blank hd hb.1, readContent_blank fuel h1 he hb.2⟩

theorem elements_single {xs : List Xml} {y : Xml} {n : Str} {as : List (Str × Str)} {c : List Xml}
    (h : elements (.elem n as c :: xs) = [y]) : elements xs = [] := by
  rw [elements] at h
  exact (List.cons.inj h).2

/-- If a text that begins with a tag and its continuation can both be read, then only white space is added. -/
theorem readXml_append {s t : Str} (hs : s.head? = some '<') {x y : Xml} (h1 : readXml s = some x) (h2 : readXml (s ++ t) = some y) :
    t.all isBlank = true := by
  obtain ⟨s, rfl⟩ : ∃ u, s = '<' :: u := by
    cases s with
    | nil => cases hs
    | cons c s => cases hs; exact ⟨s, rfl⟩
  unfold readXml at h1 h2
  split at h1
  next c1 hc1 =>
    split at h2
    next c2 hc2 =>
      split at h2
      next hb2 =>
        have he2 : ∃ z, elements c2 = [z] := by
          split at h2
          next z hz => exact ⟨z, hz⟩
          · cases h2
        have hsl : ¬ ∃ u, s = '/' :: u := by
          rintro ⟨u, rfl⟩
          rw [readContent] at hc1
          cases hc1
        have hs' : ∀ u, s ≠ '/' :: u := fun u e => hsl ⟨u, e⟩
        rw [readContent_elem hs'] at hc1
        have hne : s ≠ [] := by rintro rfl; simp [readTag, readName] at hc1
        have hs'' : ∀ u, s ++ t ≠ '/' :: u := by
          intro u e
          cases s with
          | nil => exact hne rfl
          | cons c s => cases e; exact hs' _ rfl
        rw [List.cons_append, readContent_elem hs''] at hc2
        -- what follows the root is white space
        have fin : ∀ (n : Str) (as : List (Str × Str)) (c : List Xml) (r : Str) (f : Nat) (c2 : List Xml), (∃ z, elements c2 = [z]) →
            (characters c2).all isBlank = true →
            (readContent f (r ++ t)).map (fun (p : List Xml × Str) => (Xml.elem n as c :: p.1, p.2)) = some (c2, []) → t.all isBlank = true := by
          intro n as c r f c2 he hb h
          obtain ⟨⟨ys, r2⟩, h3, h4⟩ := Option.map_eq_some_iff.mp h
          simp only [Prod.mk.injEq] at h4
          obtain ⟨rfl, rfl⟩ := h4
          obtain ⟨z, hz⟩ := he
          have := readContent_blank f h3 (elements_single hz) (by rwa [characters] at hb)
          rw [List.all_append, Bool.and_eq_true] at this
          exact this.2
        split at hc1
        · cases hc1
        next name attrs r1 ht =>
          rw [readTag_append ht] at hc2
          exact fin _ _ _ _ _ _ he2 hb2 hc2
        next name attrs r1 ht =>
          rw [readTag_append ht] at hc2
          split at hc1
          · cases hc1
          next inner r2 hin =>
            split at hc1
            · cases hc1
            next r3 hcl =>
              have hr2 : r2 ≠ [] := by rintro rfl; simp [readClose] at hcl
              simp only [readContent_append _ hin hr2 ('<' :: (s ++ t)).length (by simp), readClose_append hcl] at hc2
              exact fin _ _ _ _ _ _ he2 hb2 hc2
      · cases h2
    · cases h2
  · cases h1

end Seiren
